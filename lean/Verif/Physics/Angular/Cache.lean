import Verif.Py.Dict
import Verif.Py.ExceptLemmas
/-!
# The memoising observable class (`flavio/physics/bdecays/bvll/observables.py`, `BVllObservable`)

The external functions (form factors, effective coefficients, helicity amplitudes, corrections, angular coefficients)
are arbitrary functions that may raise; they are functions of `q2` (and of the values passed), the parameters, Wilson
coefficients and configuration being those of the object.  Every evaluation of an external function is recorded in a
log.  Not modelled: warnings, mutation by the caller of the returned dictionaries, and `nan` as `q2` (a key that is not
equal to itself).
-/
set_option linter.unusedVariables false
set_option linter.unusedSectionVars false
set_option linter.unusedSimpArgs false
namespace Verif.BVll
open Verif.Py

/-- The external functions used by the class: `get_ff`, `get_wceff` for the decay and its CP conjugate,
`angular.helicity_amps_v`, the sum with `get_ss` and `get_subleading`, and `angular.angularcoeffs_general_v`.
(Used for `ff` … `jbar`, /repo/flavio/physics/bdecays/bvll/observables.py:138-196.) -/
structure Ext (Q FF WC H J : Type) where
  getFf : Q → Except PyErr FF
  getWceff : Q → Except PyErr WC
  getWceffBar : Q → Except PyErr WC
  hel : Q → FF → WC → Bool → Except PyErr H
  correct : Q → H → Bool → Except PyErr H
  angular : Q → H → Except PyErr J

/-- What the log records: which external function was evaluated, and at which `q2`.  (The `Bool` is `cp_conjugate`.)
(Specification only, see /repo/flavio/physics/bdecays/bvll/observables.py:138-196.) -/
inductive Ev (Q : Type) where
  | ff (q : Q)
  | wceff (q : Q)
  | wceffBar (q : Q)
  | amps (q : Q) (cp : Bool)
  | angular (q : Q) (cp : Bool)
  deriving DecidableEq

/-- The instance: its seven caches, and the log.  /repo/flavio/physics/bdecays/bvll/observables.py:127-133. -/
structure Obj (Q FF WC H J : Type) where
  cff : Dict Q FF
  cwceff : Dict Q WC
  cwceffBar : Dict Q WC
  cha : Dict Q H
  chaBar : Dict Q H
  cj : Dict Q J
  cjBar : Dict Q J
  log : List (Ev Q)

section
variable {Q FF WC H J : Type} [DecidableEq Q]

/-- The caches after `__init__`.  /repo/flavio/physics/bdecays/bvll/observables.py:127-133. -/
def fresh : Obj Q FF WC H J := ⟨[], [], [], [], [], [], [], []⟩

/-- A method: returns a value or raises, and changes the instance.
(Used for `ff`, /repo/flavio/physics/bdecays/bvll/observables.py:138-142.) -/
abbrev Meth (Q FF WC H J α : Type) := Obj Q FF WC H J → Except PyErr α × Obj Q FF WC H J

/-- Sequential composition of method calls (the second is not run if the first raises).
(Used for `haM`, /repo/flavio/physics/bdecays/bvll/observables.py:167-175.) -/
def bindM {α β : Type} (m : Meth Q FF WC H J α) (f : α → Meth Q FF WC H J β) : Meth Q FF WC H J β := fun s =>
  match m s with
  | (.ok a, s') => f a s'
  | (.error e, s') => (.error e, s')

/-- Evaluation of an external function, recorded in the log.
(Used for `ffM`, /repo/flavio/physics/bdecays/bvll/observables.py:141.) -/
def call {α : Type} (ev : Ev Q) (r : Except PyErr α) : Meth Q FF WC H J α := fun s => (r, { s with log := s.log ++ [ev] })

/-- `if q2 not in self._cache: self._cache[q2] = compute` and `return self._cache[q2]`.
/repo/flavio/physics/bdecays/bvll/observables.py:140-142 and the other methods. -/
def memo {α : Type} (get : Obj Q FF WC H J → Dict Q α) (put : Dict Q α → Obj Q FF WC H J → Obj Q FF WC H J)
    (q : Q) (compute : Meth Q FF WC H J α) : Meth Q FF WC H J α := fun s =>
  match Dict.get? (get s) q with
  | some v => (.ok v, s)
  | none =>
    match compute s with
    | (.ok v, s') => (.ok v, put (Dict.set (get s') q v) s')
    | (.error e, s') => (.error e, s')

variable (E : Ext Q FF WC H J)

/-- `ff`.  /repo/flavio/physics/bdecays/bvll/observables.py:138-142. -/
def ffM (q : Q) : Meth Q FF WC H J FF :=
  memo Obj.cff (fun d s => { s with cff := d }) q (call (.ff q) (E.getFf q))

/-- `wceff`.  /repo/flavio/physics/bdecays/bvll/observables.py:144-148. -/
def wceffM (q : Q) : Meth Q FF WC H J WC :=
  memo Obj.cwceff (fun d s => { s with cwceff := d }) q (call (.wceff q) (E.getWceff q))

/-- `wceff_bar`.  /repo/flavio/physics/bdecays/bvll/observables.py:150-154. -/
def wceffBarM (q : Q) : Meth Q FF WC H J WC :=
  memo Obj.cwceffBar (fun d s => { s with cwceffBar := d }) q (call (.wceffBar q) (E.getWceffBar q))

/-- `helicity_amps_ff` and the sum with the corrections (inside `ha` and `ha_bar`).
/repo/flavio/physics/bdecays/bvll/observables.py:156-165, 170-174, 180-184. -/
def ampsM (q : Q) (cp : Bool) : Meth Q FF WC H J H :=
  bindM (ffM E q) fun f => bindM (if cp then wceffBarM E q else wceffM E q) fun w =>
    call (.amps q cp) (E.hel q f w cp >>= fun h => E.correct q h cp)

/-- `ha`.  /repo/flavio/physics/bdecays/bvll/observables.py:167-175. -/
def haM (q : Q) : Meth Q FF WC H J H :=
  memo Obj.cha (fun d s => { s with cha := d }) q (ampsM E q false)

/-- `ha_bar`.  /repo/flavio/physics/bdecays/bvll/observables.py:177-185. -/
def haBarM (q : Q) : Meth Q FF WC H J H :=
  memo Obj.chaBar (fun d s => { s with chaBar := d }) q (ampsM E q true)

/-- `j`.  /repo/flavio/physics/bdecays/bvll/observables.py:187-192. -/
def jM (q : Q) : Meth Q FF WC H J J :=
  bindM (haM E q) fun h =>
    memo Obj.cj (fun d s => { s with cj := d }) q (call (.angular q false) (E.angular q h))

/-- `jbar`.  /repo/flavio/physics/bdecays/bvll/observables.py:194-199. -/
def jBarM (q : Q) : Meth Q FF WC H J J :=
  bindM (haBarM E q) fun h =>
    memo Obj.cjBar (fun d s => { s with cjBar := d }) q (call (.angular q true) (E.angular q h))

/-- A call of `jfunc(function, q2)`; the function is a pure function of the two sets of coefficients.
/repo/flavio/physics/bdecays/bvll/observables.py:201-203. -/
def jfuncM {V : Type} (f : J → J → V) (q : Q) : Meth Q FF WC H J V :=
  bindM (jM E q) fun a => bindM (jBarM E q) fun b => fun s => (.ok (f a b), s)

/-! ## Specification: evaluation without caches -/

/-- The amplitudes computed from scratch. (Specification.) -/
def amps0 (q : Q) (cp : Bool) : Except PyErr H :=
  E.getFf q >>= fun f => (if cp then E.getWceffBar q else E.getWceff q) >>= fun w =>
    E.hel q f w cp >>= fun h => E.correct q h cp

/-- The angular coefficients computed from scratch. (Specification.) -/
def j0 (q : Q) (cp : Bool) : Except PyErr J := amps0 E q cp >>= fun h => E.angular q h

/-- A function of both sets of coefficients computed from scratch. (Specification.) -/
def jfunc0 {V : Type} (f : J → J → V) (q : Q) : Except PyErr V :=
  j0 E q false >>= fun a => j0 E q true >>= fun b => .ok (f a b)

/-- The calls a user (or the integration routine) can make on one instance.
Used for /repo/flavio/physics/bdecays/bvll/observables.py:111-206. -/
inductive Call (Q J V : Type) where
  | ff (q : Q)
  | wceff (q : Q)
  | wceffBar (q : Q)
  | ha (q : Q)
  | haBar (q : Q)
  | j (q : Q)
  | jbar (q : Q)
  | jfunc (f : J → J → V) (q : Q)

/-- The result of a call. (Specification.) -/
inductive Res (FF WC H J V : Type) where
  | ff (x : FF)
  | wc (x : WC)
  | h (x : H)
  | j (x : J)
  | v (x : V)

variable {V : Type}

/-- Forget the kind of value. (Specification.) -/
def mapM {α β : Type} (g : α → β) (m : Meth Q FF WC H J α) : Meth Q FF WC H J β := fun s =>
  match m s with
  | (.ok a, s') => (.ok (g a), s')
  | (.error e, s') => (.error e, s')

/-- One call on the instance. Used for /repo/flavio/physics/bdecays/bvll/observables.py:111-206. -/
def runCall : Call Q J V → Meth Q FF WC H J (Res FF WC H J V)
  | .ff q => mapM .ff (ffM E q)
  | .wceff q => mapM .wc (wceffM E q)
  | .wceffBar q => mapM .wc (wceffBarM E q)
  | .ha q => mapM .h (haM E q)
  | .haBar q => mapM .h (haBarM E q)
  | .j q => mapM .j (jM E q)
  | .jbar q => mapM .j (jBarM E q)
  | .jfunc f q => mapM .v (jfuncM E f q)

/-- The same call without any cache. (Specification.) -/
def pureCall : Call Q J V → Except PyErr (Res FF WC H J V)
  | .ff q => (E.getFf q).map .ff
  | .wceff q => (E.getWceff q).map .wc
  | .wceffBar q => (E.getWceffBar q).map .wc
  | .ha q => (amps0 E q false).map .h
  | .haBar q => (amps0 E q true).map .h
  | .j q => (j0 E q false).map .j
  | .jbar q => (j0 E q true).map .j
  | .jfunc f q => (jfunc0 E f q).map .v

/-- A history of calls on one instance: the results and the final instance.
Used for /repo/flavio/physics/bdecays/bvll/observables.py:111-206. -/
def runAll : List (Call Q J V) → Obj Q FF WC H J → List (Except PyErr (Res FF WC H J V)) × Obj Q FF WC H J
  | [], s => ([], s)
  | c :: cs, s =>
    let r := runCall E c s
    let rest := runAll cs r.2
    (r.1 :: rest.1, rest.2)

/-! ## Invariant -/

/-- Every cached value is the value computed from scratch, and every logged successful evaluation is in its cache
exactly once. (Specification.) -/
structure Inv (s : Obj Q FF WC H J) : Prop where
  cff : ∀ q v, Dict.get? s.cff q = some v → E.getFf q = .ok v
  cwceff : ∀ q v, Dict.get? s.cwceff q = some v → E.getWceff q = .ok v
  cwceffBar : ∀ q v, Dict.get? s.cwceffBar q = some v → E.getWceffBar q = .ok v
  cha : ∀ q v, Dict.get? s.cha q = some v → amps0 E q false = .ok v
  chaBar : ∀ q v, Dict.get? s.chaBar q = some v → amps0 E q true = .ok v
  cj : ∀ q v, Dict.get? s.cj q = some v → j0 E q false = .ok v
  cjBar : ∀ q v, Dict.get? s.cjBar q = some v → j0 E q true = .ok v
  lff : ∀ q, (∃ v, E.getFf q = .ok v) → s.log.count (.ff q) = if (Dict.get? s.cff q).isSome then 1 else 0
  lwceff : ∀ q, (∃ v, E.getWceff q = .ok v) → s.log.count (.wceff q) = if (Dict.get? s.cwceff q).isSome then 1 else 0
  lwceffBar : ∀ q, (∃ v, E.getWceffBar q = .ok v) →
    s.log.count (.wceffBar q) = if (Dict.get? s.cwceffBar q).isSome then 1 else 0
  lha : ∀ q, (∃ v, amps0 E q false = .ok v) →
    s.log.count (.amps q false) = if (Dict.get? s.cha q).isSome then 1 else 0
  lhaBar : ∀ q, (∃ v, amps0 E q true = .ok v) →
    s.log.count (.amps q true) = if (Dict.get? s.chaBar q).isSome then 1 else 0
  lj : ∀ q, (∃ v, j0 E q false = .ok v) →
    s.log.count (.angular q false) = if (Dict.get? s.cj q).isSome then 1 else 0
  ljBar : ∀ q, (∃ v, j0 E q true = .ok v) →
    s.log.count (.angular q true) = if (Dict.get? s.cjBar q).isSome then 1 else 0

/-- A method computes `r` and keeps the invariant. (Specification.) -/
def Good {α : Type} (m : Meth Q FF WC H J α) (r : Except PyErr α) : Prop :=
  ∀ s, Inv E s → (m s).1 = r ∧ Inv E (m s).2

theorem Good.bind {α β : Type} {m : Meth Q FF WC H J α} {r : Except PyErr α} {f : α → Meth Q FF WC H J β}
    {g : α → Except PyErr β} (h : Good E m r) (hf : ∀ a, r = .ok a → Good E (f a) (g a)) :
    Good E (bindM m f) (r >>= g) := by
  intro s hs
  obtain ⟨h1, h2⟩ := h s hs
  unfold bindM
  rcases hm : m s with ⟨ra, s'⟩
  rw [hm] at h1 h2
  simp only at h1 h2
  subst h1
  cases ra with
  | error e => exact ⟨rfl, h2⟩
  | ok a => exact hf a rfl s' h2

theorem Good.map {α β : Type} {m : Meth Q FF WC H J α} {r : Except PyErr α} (g : α → β) (h : Good E m r) :
    Good E (mapM g m) (r.map g) := by
  intro s hs
  obtain ⟨h1, h2⟩ := h s hs
  unfold mapM
  rcases hm : m s with ⟨ra, s'⟩
  rw [hm] at h1 h2
  simp only at h1 h2
  subst h1
  cases ra <;> exact ⟨rfl, h2⟩

theorem count_append_ne (l : List (Ev Q)) (e x : Ev Q) (h : x ≠ e) : (l ++ [e]).count x = l.count x := by
  rw [List.count_append, List.count_singleton]
  have : (e == x) = false := by simpa using fun h' => h h'.symm
  simp [this]

theorem count_append_self (l : List (Ev Q)) (e : Ev Q) : (l ++ [e]).count e = l.count e + 1 := by
  rw [List.count_append]; simp

/-! Each external evaluation keeps the invariant: if it fails, only the log grows; if it succeeds and the value was not
cached, the log grows and the value is cached. -/

theorem step_cff {s : Obj Q FF WC H J} (hs : Inv E s) (q : Q) :
    (∀ e, E.getFf q = .error e → Inv E { s with log := s.log ++ [Ev.ff q] }) ∧
    (∀ v, E.getFf q = .ok v → Dict.get? s.cff q = none →
      Inv E { s with log := s.log ++ [Ev.ff q], cff := Dict.set s.cff q v }) := by
  constructor
  · intro e hr
    refine ⟨hs.cff, hs.cwceff, hs.cwceffBar, hs.cha, hs.chaBar, hs.cj, hs.cjBar, ?_, ?_, ?_, ?_, ?_, ?_, ?_⟩
    · rintro q' ⟨v, hv⟩
      have hq : q' ≠ q := by rintro rfl; rw [hr] at hv; cases hv
      refine (count_append_ne _ _ _ (by simpa using hq)).trans (hs.lff q' ⟨v, hv⟩)
    · exact fun q' h => (count_append_ne _ _ _ (by simp)).trans (hs.lwceff q' h)
    · exact fun q' h => (count_append_ne _ _ _ (by simp)).trans (hs.lwceffBar q' h)
    · exact fun q' h => (count_append_ne _ _ _ (by simp)).trans (hs.lha q' h)
    · exact fun q' h => (count_append_ne _ _ _ (by simp)).trans (hs.lhaBar q' h)
    · exact fun q' h => (count_append_ne _ _ _ (by simp)).trans (hs.lj q' h)
    · exact fun q' h => (count_append_ne _ _ _ (by simp)).trans (hs.ljBar q' h)
  · intro v hr hc
    refine ⟨?_, hs.cwceff, hs.cwceffBar, hs.cha, hs.chaBar, hs.cj, hs.cjBar, ?_, ?_, ?_, ?_, ?_, ?_, ?_⟩
    · intro q' v' h
      rw [Dict.get?_set] at h
      split_ifs at h with hq
      · cases h; rw [← hr, hq]
      · exact hs.cff q' v' h
    · rintro q' ⟨v', hv⟩
      rw [Dict.get?_set]
      by_cases hq : q' = q
      · subst hq
        refine (count_append_self _ _).trans ?_
        rw [hs.lff q' ⟨v', hv⟩, hc]; simp
      · refine (count_append_ne _ _ _ (by simpa using hq)).trans ?_
        rw [hs.lff q' ⟨v', hv⟩]
        simp [Ne.symm hq]
    · exact fun q' h => (count_append_ne _ _ _ (by simp)).trans (hs.lwceff q' h)
    · exact fun q' h => (count_append_ne _ _ _ (by simp)).trans (hs.lwceffBar q' h)
    · exact fun q' h => (count_append_ne _ _ _ (by simp)).trans (hs.lha q' h)
    · exact fun q' h => (count_append_ne _ _ _ (by simp)).trans (hs.lhaBar q' h)
    · exact fun q' h => (count_append_ne _ _ _ (by simp)).trans (hs.lj q' h)
    · exact fun q' h => (count_append_ne _ _ _ (by simp)).trans (hs.ljBar q' h)

theorem step_cwceff {s : Obj Q FF WC H J} (hs : Inv E s) (q : Q) :
    (∀ e, E.getWceff q = .error e → Inv E { s with log := s.log ++ [Ev.wceff q] }) ∧
    (∀ v, E.getWceff q = .ok v → Dict.get? s.cwceff q = none →
      Inv E { s with log := s.log ++ [Ev.wceff q], cwceff := Dict.set s.cwceff q v }) := by
  constructor
  · intro e hr
    refine ⟨hs.cff, hs.cwceff, hs.cwceffBar, hs.cha, hs.chaBar, hs.cj, hs.cjBar, ?_, ?_, ?_, ?_, ?_, ?_, ?_⟩
    · exact fun q' h => (count_append_ne _ _ _ (by simp)).trans (hs.lff q' h)
    · rintro q' ⟨v, hv⟩
      have hq : q' ≠ q := by rintro rfl; rw [hr] at hv; cases hv
      refine (count_append_ne _ _ _ (by simpa using hq)).trans (hs.lwceff q' ⟨v, hv⟩)
    · exact fun q' h => (count_append_ne _ _ _ (by simp)).trans (hs.lwceffBar q' h)
    · exact fun q' h => (count_append_ne _ _ _ (by simp)).trans (hs.lha q' h)
    · exact fun q' h => (count_append_ne _ _ _ (by simp)).trans (hs.lhaBar q' h)
    · exact fun q' h => (count_append_ne _ _ _ (by simp)).trans (hs.lj q' h)
    · exact fun q' h => (count_append_ne _ _ _ (by simp)).trans (hs.ljBar q' h)
  · intro v hr hc
    refine ⟨hs.cff, ?_, hs.cwceffBar, hs.cha, hs.chaBar, hs.cj, hs.cjBar, ?_, ?_, ?_, ?_, ?_, ?_, ?_⟩
    · intro q' v' h
      rw [Dict.get?_set] at h
      split_ifs at h with hq
      · cases h; rw [← hr, hq]
      · exact hs.cwceff q' v' h
    · exact fun q' h => (count_append_ne _ _ _ (by simp)).trans (hs.lff q' h)
    · rintro q' ⟨v', hv⟩
      rw [Dict.get?_set]
      by_cases hq : q' = q
      · subst hq
        refine (count_append_self _ _).trans ?_
        rw [hs.lwceff q' ⟨v', hv⟩, hc]; simp
      · refine (count_append_ne _ _ _ (by simpa using hq)).trans ?_
        rw [hs.lwceff q' ⟨v', hv⟩]
        simp [Ne.symm hq]
    · exact fun q' h => (count_append_ne _ _ _ (by simp)).trans (hs.lwceffBar q' h)
    · exact fun q' h => (count_append_ne _ _ _ (by simp)).trans (hs.lha q' h)
    · exact fun q' h => (count_append_ne _ _ _ (by simp)).trans (hs.lhaBar q' h)
    · exact fun q' h => (count_append_ne _ _ _ (by simp)).trans (hs.lj q' h)
    · exact fun q' h => (count_append_ne _ _ _ (by simp)).trans (hs.ljBar q' h)

theorem step_cwceffBar {s : Obj Q FF WC H J} (hs : Inv E s) (q : Q) :
    (∀ e, E.getWceffBar q = .error e → Inv E { s with log := s.log ++ [Ev.wceffBar q] }) ∧
    (∀ v, E.getWceffBar q = .ok v → Dict.get? s.cwceffBar q = none →
      Inv E { s with log := s.log ++ [Ev.wceffBar q], cwceffBar := Dict.set s.cwceffBar q v }) := by
  constructor
  · intro e hr
    refine ⟨hs.cff, hs.cwceff, hs.cwceffBar, hs.cha, hs.chaBar, hs.cj, hs.cjBar, ?_, ?_, ?_, ?_, ?_, ?_, ?_⟩
    · exact fun q' h => (count_append_ne _ _ _ (by simp)).trans (hs.lff q' h)
    · exact fun q' h => (count_append_ne _ _ _ (by simp)).trans (hs.lwceff q' h)
    · rintro q' ⟨v, hv⟩
      have hq : q' ≠ q := by rintro rfl; rw [hr] at hv; cases hv
      refine (count_append_ne _ _ _ (by simpa using hq)).trans (hs.lwceffBar q' ⟨v, hv⟩)
    · exact fun q' h => (count_append_ne _ _ _ (by simp)).trans (hs.lha q' h)
    · exact fun q' h => (count_append_ne _ _ _ (by simp)).trans (hs.lhaBar q' h)
    · exact fun q' h => (count_append_ne _ _ _ (by simp)).trans (hs.lj q' h)
    · exact fun q' h => (count_append_ne _ _ _ (by simp)).trans (hs.ljBar q' h)
  · intro v hr hc
    refine ⟨hs.cff, hs.cwceff, ?_, hs.cha, hs.chaBar, hs.cj, hs.cjBar, ?_, ?_, ?_, ?_, ?_, ?_, ?_⟩
    · intro q' v' h
      rw [Dict.get?_set] at h
      split_ifs at h with hq
      · cases h; rw [← hr, hq]
      · exact hs.cwceffBar q' v' h
    · exact fun q' h => (count_append_ne _ _ _ (by simp)).trans (hs.lff q' h)
    · exact fun q' h => (count_append_ne _ _ _ (by simp)).trans (hs.lwceff q' h)
    · rintro q' ⟨v', hv⟩
      rw [Dict.get?_set]
      by_cases hq : q' = q
      · subst hq
        refine (count_append_self _ _).trans ?_
        rw [hs.lwceffBar q' ⟨v', hv⟩, hc]; simp
      · refine (count_append_ne _ _ _ (by simpa using hq)).trans ?_
        rw [hs.lwceffBar q' ⟨v', hv⟩]
        simp [Ne.symm hq]
    · exact fun q' h => (count_append_ne _ _ _ (by simp)).trans (hs.lha q' h)
    · exact fun q' h => (count_append_ne _ _ _ (by simp)).trans (hs.lhaBar q' h)
    · exact fun q' h => (count_append_ne _ _ _ (by simp)).trans (hs.lj q' h)
    · exact fun q' h => (count_append_ne _ _ _ (by simp)).trans (hs.ljBar q' h)

theorem step_cha {s : Obj Q FF WC H J} (hs : Inv E s) (q : Q) :
    (∀ e, amps0 E q false = .error e → Inv E { s with log := s.log ++ [Ev.amps q false] }) ∧
    (∀ v, amps0 E q false = .ok v → Dict.get? s.cha q = none →
      Inv E { s with log := s.log ++ [Ev.amps q false], cha := Dict.set s.cha q v }) := by
  constructor
  · intro e hr
    refine ⟨hs.cff, hs.cwceff, hs.cwceffBar, hs.cha, hs.chaBar, hs.cj, hs.cjBar, ?_, ?_, ?_, ?_, ?_, ?_, ?_⟩
    · exact fun q' h => (count_append_ne _ _ _ (by simp)).trans (hs.lff q' h)
    · exact fun q' h => (count_append_ne _ _ _ (by simp)).trans (hs.lwceff q' h)
    · exact fun q' h => (count_append_ne _ _ _ (by simp)).trans (hs.lwceffBar q' h)
    · rintro q' ⟨v, hv⟩
      have hq : q' ≠ q := by rintro rfl; rw [hr] at hv; cases hv
      refine (count_append_ne _ _ _ (by simpa using hq)).trans (hs.lha q' ⟨v, hv⟩)
    · exact fun q' h => (count_append_ne _ _ _ (by simp)).trans (hs.lhaBar q' h)
    · exact fun q' h => (count_append_ne _ _ _ (by simp)).trans (hs.lj q' h)
    · exact fun q' h => (count_append_ne _ _ _ (by simp)).trans (hs.ljBar q' h)
  · intro v hr hc
    refine ⟨hs.cff, hs.cwceff, hs.cwceffBar, ?_, hs.chaBar, hs.cj, hs.cjBar, ?_, ?_, ?_, ?_, ?_, ?_, ?_⟩
    · intro q' v' h
      rw [Dict.get?_set] at h
      split_ifs at h with hq
      · cases h; rw [← hr, hq]
      · exact hs.cha q' v' h
    · exact fun q' h => (count_append_ne _ _ _ (by simp)).trans (hs.lff q' h)
    · exact fun q' h => (count_append_ne _ _ _ (by simp)).trans (hs.lwceff q' h)
    · exact fun q' h => (count_append_ne _ _ _ (by simp)).trans (hs.lwceffBar q' h)
    · rintro q' ⟨v', hv⟩
      rw [Dict.get?_set]
      by_cases hq : q' = q
      · subst hq
        refine (count_append_self _ _).trans ?_
        rw [hs.lha q' ⟨v', hv⟩, hc]; simp
      · refine (count_append_ne _ _ _ (by simpa using hq)).trans ?_
        rw [hs.lha q' ⟨v', hv⟩]
        simp [Ne.symm hq]
    · exact fun q' h => (count_append_ne _ _ _ (by simp)).trans (hs.lhaBar q' h)
    · exact fun q' h => (count_append_ne _ _ _ (by simp)).trans (hs.lj q' h)
    · exact fun q' h => (count_append_ne _ _ _ (by simp)).trans (hs.ljBar q' h)

theorem step_chaBar {s : Obj Q FF WC H J} (hs : Inv E s) (q : Q) :
    (∀ e, amps0 E q true = .error e → Inv E { s with log := s.log ++ [Ev.amps q true] }) ∧
    (∀ v, amps0 E q true = .ok v → Dict.get? s.chaBar q = none →
      Inv E { s with log := s.log ++ [Ev.amps q true], chaBar := Dict.set s.chaBar q v }) := by
  constructor
  · intro e hr
    refine ⟨hs.cff, hs.cwceff, hs.cwceffBar, hs.cha, hs.chaBar, hs.cj, hs.cjBar, ?_, ?_, ?_, ?_, ?_, ?_, ?_⟩
    · exact fun q' h => (count_append_ne _ _ _ (by simp)).trans (hs.lff q' h)
    · exact fun q' h => (count_append_ne _ _ _ (by simp)).trans (hs.lwceff q' h)
    · exact fun q' h => (count_append_ne _ _ _ (by simp)).trans (hs.lwceffBar q' h)
    · exact fun q' h => (count_append_ne _ _ _ (by simp)).trans (hs.lha q' h)
    · rintro q' ⟨v, hv⟩
      have hq : q' ≠ q := by rintro rfl; rw [hr] at hv; cases hv
      refine (count_append_ne _ _ _ (by simpa using hq)).trans (hs.lhaBar q' ⟨v, hv⟩)
    · exact fun q' h => (count_append_ne _ _ _ (by simp)).trans (hs.lj q' h)
    · exact fun q' h => (count_append_ne _ _ _ (by simp)).trans (hs.ljBar q' h)
  · intro v hr hc
    refine ⟨hs.cff, hs.cwceff, hs.cwceffBar, hs.cha, ?_, hs.cj, hs.cjBar, ?_, ?_, ?_, ?_, ?_, ?_, ?_⟩
    · intro q' v' h
      rw [Dict.get?_set] at h
      split_ifs at h with hq
      · cases h; rw [← hr, hq]
      · exact hs.chaBar q' v' h
    · exact fun q' h => (count_append_ne _ _ _ (by simp)).trans (hs.lff q' h)
    · exact fun q' h => (count_append_ne _ _ _ (by simp)).trans (hs.lwceff q' h)
    · exact fun q' h => (count_append_ne _ _ _ (by simp)).trans (hs.lwceffBar q' h)
    · exact fun q' h => (count_append_ne _ _ _ (by simp)).trans (hs.lha q' h)
    · rintro q' ⟨v', hv⟩
      rw [Dict.get?_set]
      by_cases hq : q' = q
      · subst hq
        refine (count_append_self _ _).trans ?_
        rw [hs.lhaBar q' ⟨v', hv⟩, hc]; simp
      · refine (count_append_ne _ _ _ (by simpa using hq)).trans ?_
        rw [hs.lhaBar q' ⟨v', hv⟩]
        simp [Ne.symm hq]
    · exact fun q' h => (count_append_ne _ _ _ (by simp)).trans (hs.lj q' h)
    · exact fun q' h => (count_append_ne _ _ _ (by simp)).trans (hs.ljBar q' h)

theorem step_cj {s : Obj Q FF WC H J} (hs : Inv E s) (q : Q) :
    (∀ e, j0 E q false = .error e → Inv E { s with log := s.log ++ [Ev.angular q false] }) ∧
    (∀ v, j0 E q false = .ok v → Dict.get? s.cj q = none →
      Inv E { s with log := s.log ++ [Ev.angular q false], cj := Dict.set s.cj q v }) := by
  constructor
  · intro e hr
    refine ⟨hs.cff, hs.cwceff, hs.cwceffBar, hs.cha, hs.chaBar, hs.cj, hs.cjBar, ?_, ?_, ?_, ?_, ?_, ?_, ?_⟩
    · exact fun q' h => (count_append_ne _ _ _ (by simp)).trans (hs.lff q' h)
    · exact fun q' h => (count_append_ne _ _ _ (by simp)).trans (hs.lwceff q' h)
    · exact fun q' h => (count_append_ne _ _ _ (by simp)).trans (hs.lwceffBar q' h)
    · exact fun q' h => (count_append_ne _ _ _ (by simp)).trans (hs.lha q' h)
    · exact fun q' h => (count_append_ne _ _ _ (by simp)).trans (hs.lhaBar q' h)
    · rintro q' ⟨v, hv⟩
      have hq : q' ≠ q := by rintro rfl; rw [hr] at hv; cases hv
      refine (count_append_ne _ _ _ (by simpa using hq)).trans (hs.lj q' ⟨v, hv⟩)
    · exact fun q' h => (count_append_ne _ _ _ (by simp)).trans (hs.ljBar q' h)
  · intro v hr hc
    refine ⟨hs.cff, hs.cwceff, hs.cwceffBar, hs.cha, hs.chaBar, ?_, hs.cjBar, ?_, ?_, ?_, ?_, ?_, ?_, ?_⟩
    · intro q' v' h
      rw [Dict.get?_set] at h
      split_ifs at h with hq
      · cases h; rw [← hr, hq]
      · exact hs.cj q' v' h
    · exact fun q' h => (count_append_ne _ _ _ (by simp)).trans (hs.lff q' h)
    · exact fun q' h => (count_append_ne _ _ _ (by simp)).trans (hs.lwceff q' h)
    · exact fun q' h => (count_append_ne _ _ _ (by simp)).trans (hs.lwceffBar q' h)
    · exact fun q' h => (count_append_ne _ _ _ (by simp)).trans (hs.lha q' h)
    · exact fun q' h => (count_append_ne _ _ _ (by simp)).trans (hs.lhaBar q' h)
    · rintro q' ⟨v', hv⟩
      rw [Dict.get?_set]
      by_cases hq : q' = q
      · subst hq
        refine (count_append_self _ _).trans ?_
        rw [hs.lj q' ⟨v', hv⟩, hc]; simp
      · refine (count_append_ne _ _ _ (by simpa using hq)).trans ?_
        rw [hs.lj q' ⟨v', hv⟩]
        simp [Ne.symm hq]
    · exact fun q' h => (count_append_ne _ _ _ (by simp)).trans (hs.ljBar q' h)

theorem step_cjBar {s : Obj Q FF WC H J} (hs : Inv E s) (q : Q) :
    (∀ e, j0 E q true = .error e → Inv E { s with log := s.log ++ [Ev.angular q true] }) ∧
    (∀ v, j0 E q true = .ok v → Dict.get? s.cjBar q = none →
      Inv E { s with log := s.log ++ [Ev.angular q true], cjBar := Dict.set s.cjBar q v }) := by
  constructor
  · intro e hr
    refine ⟨hs.cff, hs.cwceff, hs.cwceffBar, hs.cha, hs.chaBar, hs.cj, hs.cjBar, ?_, ?_, ?_, ?_, ?_, ?_, ?_⟩
    · exact fun q' h => (count_append_ne _ _ _ (by simp)).trans (hs.lff q' h)
    · exact fun q' h => (count_append_ne _ _ _ (by simp)).trans (hs.lwceff q' h)
    · exact fun q' h => (count_append_ne _ _ _ (by simp)).trans (hs.lwceffBar q' h)
    · exact fun q' h => (count_append_ne _ _ _ (by simp)).trans (hs.lha q' h)
    · exact fun q' h => (count_append_ne _ _ _ (by simp)).trans (hs.lhaBar q' h)
    · exact fun q' h => (count_append_ne _ _ _ (by simp)).trans (hs.lj q' h)
    · rintro q' ⟨v, hv⟩
      have hq : q' ≠ q := by rintro rfl; rw [hr] at hv; cases hv
      refine (count_append_ne _ _ _ (by simpa using hq)).trans (hs.ljBar q' ⟨v, hv⟩)
  · intro v hr hc
    refine ⟨hs.cff, hs.cwceff, hs.cwceffBar, hs.cha, hs.chaBar, hs.cj, ?_, ?_, ?_, ?_, ?_, ?_, ?_, ?_⟩
    · intro q' v' h
      rw [Dict.get?_set] at h
      split_ifs at h with hq
      · cases h; rw [← hr, hq]
      · exact hs.cjBar q' v' h
    · exact fun q' h => (count_append_ne _ _ _ (by simp)).trans (hs.lff q' h)
    · exact fun q' h => (count_append_ne _ _ _ (by simp)).trans (hs.lwceff q' h)
    · exact fun q' h => (count_append_ne _ _ _ (by simp)).trans (hs.lwceffBar q' h)
    · exact fun q' h => (count_append_ne _ _ _ (by simp)).trans (hs.lha q' h)
    · exact fun q' h => (count_append_ne _ _ _ (by simp)).trans (hs.lhaBar q' h)
    · exact fun q' h => (count_append_ne _ _ _ (by simp)).trans (hs.lj q' h)
    · rintro q' ⟨v', hv⟩
      rw [Dict.get?_set]
      by_cases hq : q' = q
      · subst hq
        refine (count_append_self _ _).trans ?_
        rw [hs.ljBar q' ⟨v', hv⟩, hc]; simp
      · refine (count_append_ne _ _ _ (by simpa using hq)).trans ?_
        rw [hs.ljBar q' ⟨v', hv⟩]
        simp [Ne.symm hq]

theorem good_ff (q : Q) : Good E (ffM E q) (E.getFf q) := by
  intro s hs
  unfold ffM memo call
  cases hc : Dict.get? s.cff q with
  | some v => exact ⟨(hs.cff q v hc).symm, hs⟩
  | none =>
    cases hr : E.getFf q with
    | error e => exact ⟨rfl, (step_cff E hs q).1 e hr⟩
    | ok v => exact ⟨rfl, (step_cff E hs q).2 v hr hc⟩

theorem ff_frame (q : Q) (s : Obj Q FF WC H J) : ((ffM E q) s).2.cha = s.cha ∧ ((ffM E q) s).2.chaBar = s.chaBar := by
  unfold ffM memo call
  cases hc : Dict.get? s.cff q with
  | some v => exact ⟨rfl, rfl⟩
  | none => cases hr : E.getFf q <;> exact ⟨rfl, rfl⟩

theorem good_wceff (q : Q) : Good E (wceffM E q) (E.getWceff q) := by
  intro s hs
  unfold wceffM memo call
  cases hc : Dict.get? s.cwceff q with
  | some v => exact ⟨(hs.cwceff q v hc).symm, hs⟩
  | none =>
    cases hr : E.getWceff q with
    | error e => exact ⟨rfl, (step_cwceff E hs q).1 e hr⟩
    | ok v => exact ⟨rfl, (step_cwceff E hs q).2 v hr hc⟩

theorem wceff_frame (q : Q) (s : Obj Q FF WC H J) : ((wceffM E q) s).2.cha = s.cha ∧ ((wceffM E q) s).2.chaBar = s.chaBar := by
  unfold wceffM memo call
  cases hc : Dict.get? s.cwceff q with
  | some v => exact ⟨rfl, rfl⟩
  | none => cases hr : E.getWceff q <;> exact ⟨rfl, rfl⟩

theorem good_wceffBar (q : Q) : Good E (wceffBarM E q) (E.getWceffBar q) := by
  intro s hs
  unfold wceffBarM memo call
  cases hc : Dict.get? s.cwceffBar q with
  | some v => exact ⟨(hs.cwceffBar q v hc).symm, hs⟩
  | none =>
    cases hr : E.getWceffBar q with
    | error e => exact ⟨rfl, (step_cwceffBar E hs q).1 e hr⟩
    | ok v => exact ⟨rfl, (step_cwceffBar E hs q).2 v hr hc⟩

theorem wceffBar_frame (q : Q) (s : Obj Q FF WC H J) : ((wceffBarM E q) s).2.cha = s.cha ∧ ((wceffBarM E q) s).2.chaBar = s.chaBar := by
  unfold wceffBarM memo call
  cases hc : Dict.get? s.cwceffBar q with
  | some v => exact ⟨rfl, rfl⟩
  | none => cases hr : E.getWceffBar q <;> exact ⟨rfl, rfl⟩

theorem good_ha (q : Q) : Good E (haM E q) (amps0 E q false) := by
  intro s hs
  unfold haM memo
  cases hc : Dict.get? s.cha q with
  | some v => exact ⟨(hs.cha q v hc).symm, hs⟩
  | none =>
    obtain ⟨f1, f2⟩ := good_ff E q s hs
    have f3 := ff_frame E q s
    have ha : ampsM E q false = bindM (ffM E q) fun f => bindM (wceffM E q) fun w =>
        call (.amps q false) (E.hel q f w false >>= fun h => E.correct q h false) := rfl
    have h0 : amps0 E q false = (E.getFf q >>= fun f => E.getWceff q >>= fun w =>
        E.hel q f w false >>= fun h => E.correct q h false) := rfl
    simp only []
    rw [ha]
    unfold bindM
    rcases hm : ffM E q s with ⟨rf, s1⟩
    rw [hm] at f1 f2 f3
    simp only at f1 f2 f3
    subst f1
    cases hf : E.getFf q with
    | error e => exact ⟨by rw [h0, hf]; rfl, f2⟩
    | ok f =>
      simp only []
      obtain ⟨w1, w2⟩ := good_wceff E q s1 f2
      have w3 := wceff_frame E q s1
      rcases hw : wceffM E q s1 with ⟨rw', s2⟩
      rw [hw] at w1 w2 w3
      simp only at w1 w2 w3
      subst w1
      cases hw' : E.getWceff q with
      | error e => exact ⟨by rw [h0, hf, ok_bind_eq, hw']; rfl, w2⟩
      | ok w =>
        have hc2 : Dict.get? s2.cha q = none := by
          first
            | rw [w3.1, f3.1]; exact hc
            | rw [w3.2, f3.2]; exact hc
        have hv : amps0 E q false = (E.hel q f w false >>= fun h => E.correct q h false) := by
          rw [h0, hf, ok_bind_eq, hw', ok_bind_eq]
        unfold call
        simp only []
        cases hr : (E.hel q f w false >>= fun h => E.correct q h false) with
        | error e => exact ⟨by rw [hv, hr], (step_cha E w2 q).1 e (hv.trans hr)⟩
        | ok v => exact ⟨by rw [hv, hr], (step_cha E w2 q).2 v (hv.trans hr) hc2⟩

theorem good_haBar (q : Q) : Good E (haBarM E q) (amps0 E q true) := by
  intro s hs
  unfold haBarM memo
  cases hc : Dict.get? s.chaBar q with
  | some v => exact ⟨(hs.chaBar q v hc).symm, hs⟩
  | none =>
    obtain ⟨f1, f2⟩ := good_ff E q s hs
    have f3 := ff_frame E q s
    have ha : ampsM E q true = bindM (ffM E q) fun f => bindM (wceffBarM E q) fun w =>
        call (.amps q true) (E.hel q f w true >>= fun h => E.correct q h true) := rfl
    have h0 : amps0 E q true = (E.getFf q >>= fun f => E.getWceffBar q >>= fun w =>
        E.hel q f w true >>= fun h => E.correct q h true) := rfl
    simp only []
    rw [ha]
    unfold bindM
    rcases hm : ffM E q s with ⟨rf, s1⟩
    rw [hm] at f1 f2 f3
    simp only at f1 f2 f3
    subst f1
    cases hf : E.getFf q with
    | error e => exact ⟨by rw [h0, hf]; rfl, f2⟩
    | ok f =>
      simp only []
      obtain ⟨w1, w2⟩ := good_wceffBar E q s1 f2
      have w3 := wceffBar_frame E q s1
      rcases hw : wceffBarM E q s1 with ⟨rw', s2⟩
      rw [hw] at w1 w2 w3
      simp only at w1 w2 w3
      subst w1
      cases hw' : E.getWceffBar q with
      | error e => exact ⟨by rw [h0, hf, ok_bind_eq, hw']; rfl, w2⟩
      | ok w =>
        have hc2 : Dict.get? s2.chaBar q = none := by
          first
            | rw [w3.1, f3.1]; exact hc
            | rw [w3.2, f3.2]; exact hc
        have hv : amps0 E q true = (E.hel q f w true >>= fun h => E.correct q h true) := by
          rw [h0, hf, ok_bind_eq, hw', ok_bind_eq]
        unfold call
        simp only []
        cases hr : (E.hel q f w true >>= fun h => E.correct q h true) with
        | error e => exact ⟨by rw [hv, hr], (step_chaBar E w2 q).1 e (hv.trans hr)⟩
        | ok v => exact ⟨by rw [hv, hr], (step_chaBar E w2 q).2 v (hv.trans hr) hc2⟩

theorem good_j (q : Q) : Good E (jM E q) (j0 E q false) := by
  unfold jM j0
  refine (good_ha E q).bind E fun h hh s hs => ?_
  have hv : j0 E q false = E.angular q h := by unfold j0; rw [hh, ok_bind_eq]
  unfold memo call
  cases hc : Dict.get? s.cj q with
  | some v => exact ⟨by rw [← hv]; exact (hs.cj q v hc).symm, hs⟩
  | none =>
    cases hr : E.angular q h with
    | error e => exact ⟨rfl, (step_cj E hs q).1 e (hv.trans hr)⟩
    | ok v => exact ⟨rfl, (step_cj E hs q).2 v (hv.trans hr) hc⟩

theorem good_jBar (q : Q) : Good E (jBarM E q) (j0 E q true) := by
  unfold jBarM j0
  refine (good_haBar E q).bind E fun h hh s hs => ?_
  have hv : j0 E q true = E.angular q h := by unfold j0; rw [hh, ok_bind_eq]
  unfold memo call
  cases hc : Dict.get? s.cjBar q with
  | some v => exact ⟨by rw [← hv]; exact (hs.cjBar q v hc).symm, hs⟩
  | none =>
    cases hr : E.angular q h with
    | error e => exact ⟨rfl, (step_cjBar E hs q).1 e (hv.trans hr)⟩
    | ok v => exact ⟨rfl, (step_cjBar E hs q).2 v (hv.trans hr) hc⟩

theorem good_jfunc (f : J → J → V) (q : Q) : Good E (jfuncM E f q) (jfunc0 E f q) := by
  unfold jfuncM jfunc0
  exact (good_j E q).bind E fun a _ => (good_jBar E q).bind E fun b _ s hs => ⟨rfl, hs⟩

theorem good_call (c : Call Q J V) : Good E (runCall E c) (pureCall E c) := by
  cases c with
  | ff q => exact (good_ff E q).map E _
  | wceff q => exact (good_wceff E q).map E _
  | wceffBar q => exact (good_wceffBar E q).map E _
  | ha q => exact (good_ha E q).map E _
  | haBar q => exact (good_haBar E q).map E _
  | j q => exact (good_j E q).map E _
  | jbar q => exact (good_jBar E q).map E _
  | jfunc f q => exact (good_jfunc E f q).map E _

theorem inv_fresh : Inv E (fresh : Obj Q FF WC H J) := by
  constructor <;> intro q <;> simp [fresh, Dict.get?]

theorem good_all (cs : List (Call Q J V)) (s : Obj Q FF WC H J) (hs : Inv E s) :
    (runAll E cs s).1 = cs.map (pureCall E) ∧ Inv E (runAll E cs s).2 := by
  induction cs generalizing s with
  | nil => exact ⟨rfl, hs⟩
  | cons c cs ih =>
    obtain ⟨h1, h2⟩ := good_call E c s hs
    obtain ⟨i1, i2⟩ := ih _ h2
    exact ⟨by simp only [runAll, List.map_cons, h1, i1], i2⟩

/-- **C89 (the caches are transparent).** For every sequence of method calls on one observable object, in any order
and at any values of `q2`, with external functions that may raise: every call returns (or raises) what the evaluation
without any cache gives. -/
theorem C89_transparent (cs : List (Call Q J V)) :
    (runAll E cs (fresh : Obj Q FF WC H J)).1 = cs.map (pureCall E) :=
  (good_all E cs _ (inv_fresh E)).1

/-- **C89 (nothing is computed twice).** In every such sequence of calls each external evaluation that succeeds is
made at most once per value of `q2` (and CP conjugation): form factors, effective coefficients, amplitudes and angular
coefficients; in particular the form factors are shared between the decay and its CP conjugate. -/
theorem C89_once (cs : List (Call Q J V)) (q : Q) :
    ((∃ v, E.getFf q = .ok v) → (runAll E cs (fresh : Obj Q FF WC H J)).2.log.count (.ff q) ≤ 1) ∧
    ((∃ v, E.getWceff q = .ok v) → (runAll E cs (fresh : Obj Q FF WC H J)).2.log.count (.wceff q) ≤ 1) ∧
    ((∃ v, E.getWceffBar q = .ok v) → (runAll E cs (fresh : Obj Q FF WC H J)).2.log.count (.wceffBar q) ≤ 1) ∧
    (∀ cp, (∃ v, amps0 E q cp = .ok v) → (runAll E cs (fresh : Obj Q FF WC H J)).2.log.count (.amps q cp) ≤ 1) ∧
    (∀ cp, (∃ v, j0 E q cp = .ok v) → (runAll E cs (fresh : Obj Q FF WC H J)).2.log.count (.angular q cp) ≤ 1) := by
  obtain ⟨-, h⟩ := good_all E cs _ (inv_fresh E)
  have k : ∀ (b : Bool) (n : ℕ), (n = if b then 1 else 0) → n ≤ 1 := by
    intro b n hn; subst hn; cases b <;> simp
  refine ⟨fun hv => k _ _ (h.lff q hv), fun hv => k _ _ (h.lwceff q hv), fun hv => k _ _ (h.lwceffBar q hv), ?_, ?_⟩
  · intro cp; cases cp
    · exact fun hv => k _ _ (h.lha q hv)
    · exact fun hv => k _ _ (h.lhaBar q hv)
  · intro cp; cases cp
    · exact fun hv => k _ _ (h.lj q hv)
    · exact fun hv => k _ _ (h.ljBar q hv)

/-- **C89 (failures are not cached).** A failing evaluation leaves the caches of the failing quantity unchanged, so a
later call evaluates (and raises) again. -/
theorem C89_failures_not_cached (cs : List (Call Q J V)) (q : Q) (e : PyErr) (h : E.getFf q = .error e) :
    Dict.get? (runAll E cs (fresh : Obj Q FF WC H J)).2.cff q = none := by
  obtain ⟨-, hi⟩ := good_all E cs _ (inv_fresh E)
  cases hc : Dict.get? (runAll E cs (fresh : Obj Q FF WC H J)).2.cff q with
  | none => rfl
  | some v => have := hi.cff q v hc; rw [h] at this; cases this

end

/-- External functions for a concrete check: the form factors do not exist at `q2 = 0`. -/
def sampleExt : Ext Nat Nat Nat Nat Nat where
  getFf q := if q = 0 then .error .zeroDivisionError else .ok (10 * q)
  getWceff q := .ok (q + 1)
  getWceffBar q := .ok (q + 2)
  hel _ f w _ := .ok (f + w)
  correct _ h cp := .ok (if cp then h + 100 else h)
  angular _ h := .ok (2 * h)

/-- **C89 (a concrete history).** Two evaluations at one `q2` and one at a failing `q2`. -/
theorem C89_sample :
    (runAll sampleExt [Call.jfunc (fun a b => (a, b)) 3, .j 3, .ff 0, .jbar 3] fresh).2.log =
      [.ff 3, .wceff 3, .amps 3 false, .angular 3 false, .wceffBar 3, .amps 3 true, .angular 3 true, .ff 0] ∧
    (pureCall sampleExt (Call.jfunc (fun a b => (a, b)) 3 : Call Nat Nat (Nat × Nat))) = .ok (.v (68, 270)) :=
  ⟨by decide, rfl⟩

end Verif.BVll
