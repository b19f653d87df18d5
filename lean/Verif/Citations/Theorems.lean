import Verif.Citations.Model
import Verif.Py.ExceptLemmas
import Mathlib.Data.List.Nodup
import Mathlib.Data.List.Induction
import Mathlib.Data.Nat.Basic
import Mathlib.Tactic.Tauto
import Mathlib.Data.List.Dedup
/-!
# C25, C26: citation scopes and the citation registry
-/
set_option linter.unusedSectionVars false
set_option linter.unusedSimpArgs false
namespace Verif.Citations
open Verif.Py

variable {K : Type} [LinearOrder K]

/-! ## Specification -/

/-- What a user does to one citations object. (Specification.) -/
inductive Event (K : Type) where
  | register (k : K)
  | clear
  | reset
  deriving DecidableEq

/-- The event wipes what was registered before it. (Specification.) -/
def Event.wipes : Event K → Prop
  | .register _ => False
  | _ => True

/-- `k` is cited after the history `evs` (oldest first): it was registered and not wiped since, or it
is one of the initial citations and the last wipe, if any, was a `reset`. (Specification.) -/
def Cited (initial : List K) (evs : List (Event K)) (k : K) : Prop :=
  (∃ pre post, evs = pre ++ Event.register k :: post ∧ ∀ e ∈ post, ¬ e.wipes) ∨
  (k ∈ initial ∧ ((∀ e ∈ evs, ¬ e.wipes) ∨
    ∃ pre post, evs = pre ++ Event.reset :: post ∧ ∀ e ∈ post, ¬ e.wipes))

/-- Perform one event; a failing call leaves the object as it was and the user goes on. (Specification.) -/
def step (c : Cits K) : Event K → Cits K
  | .register k => match register c k with | .ok c' => c' | .error _ => c
  | .clear => clear c
  | .reset => match reset c with | .ok c' => c' | .error _ => c

/-- Perform a history. (Specification.) -/
def perform (c : Cits K) (evs : List (Event K)) : Cits K := evs.foldl step c

/-! ## Bookkeeping -/

/-- The invariant of a citations object over the key list `keys`. (Specification.) -/
structure Inv (keys : List K) (c : Cits K) : Prop where
  nodup : keys.Nodup
  sorted : keys.Pairwise (fun a b => decide (a ≤ b) = true)
  index : c.index = keys.zipIdx
  len : c.array.length = keys.length
  init : ∀ k ∈ c.initial, k ∈ keys

theorem keys_zipIdx (keys : List K) : Dict.keys keys.zipIdx = keys := by
  simp [Dict.keys]

theorem get?_zipIdx (keys : List K) (k : K) (h : keys.Nodup) (i : Nat) :
    Dict.get? keys.zipIdx k = some i ↔ keys[i]? = some k := by
  have wf : Dict.WF keys.zipIdx := by unfold Dict.WF; rw [keys_zipIdx]; exact h
  rw [Dict.get?_eq_some_iff wf]
  constructor
  · intro hm
    have := List.mem_zipIdx hm
    obtain ⟨_, h2, h3⟩ := this
    simp at h2 h3
    rw [h3]; simp; 
  · intro hi
    rw [List.mk_mem_zipIdx_iff_getElem?]; exact hi

theorem sorted_of_inv {keys : List K} {c : Cits K} (h : Inv keys c) :
    sorted c.index.keys = keys := by
  rw [h.index, keys_zipIdx, Citations.sorted, List.mergeSort_of_pairwise h.sorted]

theorem mem_set {keys : List K} {c : Cits K} (h : Inv keys c) (k : K) :
    k ∈ set c ↔ ∃ i : Nat, keys[i]? = some k ∧ c.array[i]? = some true := by
  unfold set
  rw [sorted_of_inv h]
  simp only [List.mem_filterMap, Prod.exists]
  constructor
  · rintro ⟨a, b, hm, hb⟩
    obtain ⟨i, hi⟩ := List.mem_iff_getElem?.1 hm
    rw [List.getElem?_zip_eq_some] at hi
    cases b <;> simp at hb
    subst hb
    exact ⟨i, hi.1, hi.2⟩
  · rintro ⟨i, h1, h2⟩
    refine ⟨k, true, ?_, by simp⟩
    exact List.mem_iff_getElem?.2 ⟨i, List.getElem?_zip_eq_some.2 ⟨h1, h2⟩⟩

theorem register_ok {keys : List K} {c : Cits K} (h : Inv keys c) {k : K} (hk : k ∈ keys) :
    ∃ c', register c k = .ok c' ∧ Inv keys c' ∧ c'.initial = c.initial ∧
      ∀ k', k' ∈ set c' ↔ k' = k ∨ k' ∈ set c := by
  obtain ⟨i, hi⟩ := List.mem_iff_getElem?.1 hk
  have hg : c.index.get? k = some i := by rw [h.index]; exact (get?_zipIdx keys k h.nodup i).2 hi
  have inv' : Inv keys { c with array := c.array.set i true } :=
    ⟨h.nodup, h.sorted, h.index, by simp [h.len], h.init⟩
  refine ⟨{ c with array := c.array.set i true }, by simp [register, hg], inv', rfl, ?_⟩
  intro k'
  rw [mem_set inv', mem_set h]
  have hil : i < c.array.length := by
    rw [h.len]; exact (List.getElem?_eq_some_iff.1 hi).1
  constructor
  · rintro ⟨j, hj, hj2⟩
    by_cases hij : i = j
    · subst hij; rw [hi] at hj; exact Or.inl (by injection hj with e; exact e.symm)
    · rw [List.getElem?_set_ne hij] at hj2; exact Or.inr ⟨j, hj, hj2⟩
  · rintro (rfl | ⟨j, hj, hj2⟩)
    · exact ⟨i, hi, by simp [hil]⟩
    · refine ⟨j, hj, ?_⟩
      by_cases hij : i = j
      · subst hij; simp [hil]
      · simpa [List.getElem?_set_ne hij] using hj2

theorem register_err {keys : List K} {c : Cits K} (h : Inv keys c) {k : K} (hk : k ∉ keys) :
    register c k = .error .keyError := by
  have : c.index.get? k = none := by
    rw [Dict.get?_eq_none_iff, h.index, keys_zipIdx]; exact hk
  simp [register, this]

theorem registerAll_ok {keys : List K} (ks : List K) {c : Cits K} (h : Inv keys c)
    (hk : ∀ k ∈ ks, k ∈ keys) :
    ∃ c', registerAll c ks = .ok c' ∧ Inv keys c' ∧ c'.initial = c.initial ∧
      ∀ k', k' ∈ set c' ↔ k' ∈ ks ∨ k' ∈ set c := by
  induction ks generalizing c with
  | nil => exact ⟨c, rfl, h, rfl, by simp⟩
  | cons a ks ih =>
    obtain ⟨c1, h1, i1, e1, s1⟩ := register_ok h (hk a (by simp))
    obtain ⟨c2, h2, i2, e2, s2⟩ := ih i1 (fun k hk' => hk k (by simp [hk']))
    refine ⟨c2, ?_, i2, e2.trans e1, ?_⟩
    · unfold registerAll at h2 ⊢
      rw [List.foldlM_cons, h1]; exact h2
    · intro k'; rw [s2, s1]; simp only [List.mem_cons]; tauto

theorem clear_inv {keys : List K} {c : Cits K} (h : Inv keys c) : Inv keys (clear c) :=
  ⟨h.nodup, h.sorted, h.index, by simp [clear, h.len], h.init⟩

theorem clear_set {keys : List K} {c : Cits K} (h : Inv keys c) (k : K) : k ∉ set (clear c) := by
  rw [mem_set (clear_inv h)]
  rintro ⟨i, -, hi⟩
  simp [clear, List.getElem?_replicate] at hi

theorem new_ok (allKeys initial : List K) :
    ∃ keys c, new allKeys initial = .ok c ∧ Inv keys c ∧
      (∀ k, k ∈ keys ↔ k ∈ allKeys ∨ k ∈ initial) ∧
      (∀ k, k ∈ c.initial ↔ k ∈ initial) ∧ ∀ k, k ∈ set c ↔ k ∈ initial := by
  let keys := sorted (allKeys ++ initial).dedup
  have hperm : keys.Perm (allKeys ++ initial).dedup := List.mergeSort_perm _ _
  have hnd : keys.Nodup := hperm.nodup_iff.2 (by
    exact List.nodup_dedup _)
  have hmem : ∀ k, k ∈ keys ↔ k ∈ allKeys ∨ k ∈ initial := by
    intro k; rw [hperm.mem_iff]; simp
  have hof : Dict.ofPairs keys.zipIdx = keys.zipIdx :=
    Dict.ofPairs_of_nodup _ (by simpa using hnd)
  let c0 : Cits K :=
    { initial := initial.dedup
      index := Dict.ofPairs keys.zipIdx
      array := List.replicate (Dict.ofPairs keys.zipIdx).length false }
  have inv0 : Inv keys c0 :=
    { nodup := hnd
      sorted := by
        apply List.pairwise_mergeSort
        · intro a b c; simp; exact le_trans
        · intro a b; simp; exact le_total a b
      index := hof
      len := by simp [c0, hof]
      init := by intro k hk; rw [hmem]; right; simpa [c0] using hk }
  obtain ⟨c, hc, ic, ec, sc⟩ := registerAll_ok c0.initial inv0 inv0.init
  refine ⟨keys, c, hc, ic, hmem, by intro k; rw [ec]; simp [c0], ?_⟩
  intro k; rw [sc]
  have : k ∉ set c0 := by
    rw [mem_set inv0]; rintro ⟨i, -, hi⟩; simp [c0, List.getElem?_replicate] at hi
  simp [this, c0]

theorem reset_ok {keys : List K} {c : Cits K} (h : Inv keys c) :
    ∃ c', reset c = .ok c' ∧ Inv keys c' ∧ c'.initial = c.initial ∧
      ∀ k, k ∈ set c' ↔ k ∈ c.initial := by
  obtain ⟨c', h1, i1, e1, s1⟩ := registerAll_ok c.initial (clear_inv h) h.init
  refine ⟨c', h1, i1, e1, ?_⟩
  intro k; rw [s1]; simp [clear_set h]

theorem step_inv {keys : List K} {c : Cits K} (h : Inv keys c) (e : Event K) :
    Inv keys (step c e) ∧ (step c e).initial = c.initial := by
  cases e with
  | register k =>
    by_cases hk : k ∈ keys
    · obtain ⟨c', h1, i1, e1, _⟩ := register_ok h hk
      simp only [step, h1]; exact ⟨i1, e1⟩
    · simp only [step, register_err h hk]; exact ⟨h, trivial⟩
  | clear => exact ⟨clear_inv h, rfl⟩
  | reset =>
    obtain ⟨c', h1, i1, e1, _⟩ := reset_ok h
    simp only [step, h1]; exact ⟨i1, e1⟩

theorem perform_inv {keys : List K} {c : Cits K} (h : Inv keys c) (evs : List (Event K)) :
    Inv keys (perform c evs) ∧ (perform c evs).initial = c.initial := by
  induction evs generalizing c with
  | nil => exact ⟨h, rfl⟩
  | cons e evs ih =>
    obtain ⟨h1, h2⟩ := step_inv h e
    obtain ⟨h3, h4⟩ := ih h1
    exact ⟨h3, h4.trans h2⟩

/-- `Cited` after one more event. -/
theorem cited_snoc (init : List K) (evs : List (Event K)) (e : Event K) (k : K) :
    Cited init (evs ++ [e]) k ↔
      match e with
      | .register k' => k = k' ∨ Cited init evs k
      | .clear => False
      | .reset => k ∈ init := by
  have key : ∀ (x : Event K) (pre post : List (Event K)), evs ++ [e] = pre ++ x :: post →
      (∀ y ∈ post, ¬ y.wipes) → (post = [] ∧ pre = evs ∧ x = e) ∨
        (¬ e.wipes ∧ ∃ post', evs = pre ++ x :: post' ∧ ∀ y ∈ post', ¬ y.wipes) := by
    intro x pre post h hp
    induction post using List.reverseRecOn with
    | nil =>
      have := List.append_inj' h rfl
      left; simp at this; exact ⟨rfl, this.1.symm, this.2.symm⟩
    | append_singleton l a _ =>
      right
      rw [← List.cons_append, ← List.append_assoc] at h
      have := List.append_inj' h rfl
      simp at this
      refine ⟨by rw [this.2]; exact hp a (by simp), l, this.1, fun y hy => hp y (by simp [hy])⟩
  constructor
  · rintro (⟨pre, post, h, hp⟩ | ⟨hk, hn | ⟨pre, post, h, hp⟩⟩)
    · rcases key _ _ _ h hp with ⟨rfl, rfl, rfl⟩ | ⟨hw, post', h', hp'⟩
      · exact Or.inl rfl
      · cases e with
        | register k' => exact Or.inr (Or.inl ⟨pre, post', h', hp'⟩)
        | clear => exact absurd trivial hw
        | reset => exact absurd trivial hw
    · have hw := hn e (by simp)
      cases e with
      | register k' => exact Or.inr (Or.inr ⟨hk, Or.inl fun y hy => hn y (by simp [hy])⟩)
      | clear => exact absurd trivial hw
      | reset => exact absurd trivial hw
    · rcases key _ _ _ h hp with ⟨rfl, rfl, rfl⟩ | ⟨hw, post', h', hp'⟩
      · exact hk
      · cases e with
        | register k' => exact Or.inr (Or.inr ⟨hk, Or.inr ⟨pre, post', h', hp'⟩⟩)
        | clear => exact absurd trivial hw
        | reset => exact absurd trivial hw
  · have nw : ∀ k' : K, ¬ (Event.register k').wipes := fun _ h => h
    cases e with
    | register k' =>
      rintro (rfl | ⟨pre, post, h, hp⟩ | ⟨hk, hn | ⟨pre, post, h, hp⟩⟩)
      · exact Or.inl ⟨evs, [], rfl, by simp⟩
      · refine Or.inl ⟨pre, post ++ [.register k'], by simp [h], ?_⟩
        intro y hy; simp at hy; rcases hy with hy | rfl; exacts [hp y hy, nw _]
      · refine Or.inr ⟨hk, Or.inl ?_⟩
        intro y hy; simp at hy; rcases hy with hy | rfl; exacts [hn y hy, nw _]
      · refine Or.inr ⟨hk, Or.inr ⟨pre, post ++ [.register k'], by simp [h], ?_⟩⟩
        intro y hy; simp at hy; rcases hy with hy | rfl; exacts [hp y hy, nw _]
    | clear => exact False.elim
    | reset => exact fun hk => Or.inr ⟨hk, Or.inr ⟨evs, [], rfl, by simp⟩⟩

/-- The general form of C26 for an object in any state, with the known keys `keys`. -/
theorem set_perform {keys : List K} {c : Cits K} (h : Inv keys c)
    (hs : ∀ k, k ∈ set c ↔ k ∈ c.initial) (evs : List (Event K)) (k : K) :
    k ∈ set (perform c evs) ↔ Cited c.initial evs k ∧ k ∈ keys := by
  induction evs using List.reverseRecOn generalizing k with
  | nil =>
    simp only [perform, List.foldl_nil, hs, Cited]
    constructor
    · intro hk; exact ⟨Or.inr ⟨hk, by simp⟩, h.init k hk⟩
    · rintro ⟨(⟨pre, post, hh, _⟩ | ⟨hk, _⟩), _⟩
      · simp at hh
      · exact hk
  | append_singleton evs e ih =>
    obtain ⟨hi, hin⟩ := perform_inv h evs
    have : perform c (evs ++ [e]) = step (perform c evs) e := by simp [perform]
    rw [this, cited_snoc]
    cases e with
    | register k' =>
      by_cases hk : k' ∈ keys
      · obtain ⟨c', h1, i1, e1, s1⟩ := register_ok hi hk
        simp only [step, h1, s1, ih]
        constructor
        · rintro (rfl | ⟨h1, h2⟩)
          · exact ⟨Or.inl rfl, hk⟩
          · exact ⟨Or.inr h1, h2⟩
        · rintro ⟨rfl | h1, h2⟩
          · exact Or.inl rfl
          · exact Or.inr ⟨h1, h2⟩
      · simp only [step, register_err hi hk, ih]
        constructor
        · rintro ⟨h1, h2⟩; exact ⟨Or.inr h1, h2⟩
        · rintro ⟨rfl | h1, h2⟩
          · exact absurd h2 hk
          · exact ⟨h1, h2⟩
    | clear => simp [step, clear_set hi]
    | reset =>
      obtain ⟨c', h1, i1, e1, s1⟩ := reset_ok hi
      simp only [step, h1, s1, hin]
      exact ⟨fun hk => ⟨hk, h.init k hk⟩, And.left⟩

/-- **C26** `Citations(initial)` followed by any history of register/clear/reset calls contains
exactly the known keys cited according to the history: registered since the last wipe, or initial
and not cleared away.  (Known keys: `data/citations.yml` plus the initial ones.) -/
theorem C26_set_is_history (allKeys initial : List K) :
    ∃ c, new allKeys initial = .ok c ∧ ∀ evs k,
      (k ∈ set (perform c evs) ↔
        Cited initial evs k ∧ (k ∈ allKeys ∨ k ∈ initial)) := by
  obtain ⟨keys, c, hc, ic, hk, hi, hs⟩ := new_ok allKeys initial
  refine ⟨c, hc, fun evs k => ?_⟩
  rw [set_perform ic (fun k => (hs k).trans (hi k).symm), hk]
  simp only [Cited, hi]

/-- **C26** In every reachable state: registering a known key succeeds, an unknown one raises
`KeyError` and (being an exception before any assignment) changes nothing. -/
theorem C26_register_keyError_iff (allKeys initial : List K) (c : Cits K)
    (hc : new allKeys initial = .ok c) (evs : List (Event K)) (k : K) :
    (register (perform c evs) k = .error .keyError ↔ k ∉ allKeys ∧ k ∉ initial) ∧
    (k ∉ allKeys → k ∉ initial → step (perform c evs) (.register k) = perform c evs) := by
  obtain ⟨keys, c', hc', ic, hk, -, -⟩ := new_ok allKeys initial
  rw [hc] at hc'; injection hc' with e; subst e
  have hi := (perform_inv ic evs).1
  have := hk k
  refine ⟨?_, ?_⟩
  · by_cases hm : k ∈ keys
    · obtain ⟨c', h1, _⟩ := register_ok hi hm
      rw [h1]; simp; rw [hk] at hm; tauto
    · simp [register_err hi hm]; rw [hk] at hm; tauto
  · intro h1 h2
    have hm : k ∉ keys := by rw [hk]; tauto
    simp [step, register_err hi hm]

/-- **C26** Registering is idempotent and the order of registrations does not matter, in every
reachable state (also when one of them fails). -/
theorem C26_register_idem_comm (allKeys initial : List K) (c : Cits K)
    (hc : new allKeys initial = .ok c) (evs : List (Event K)) (a b k : K) :
    (k ∈ set (perform c (evs ++ [.register a, .register a])) ↔
      k ∈ set (perform c (evs ++ [.register a]))) ∧
    (k ∈ set (perform c (evs ++ [.register a, .register b])) ↔
      k ∈ set (perform c (evs ++ [.register b, .register a]))) := by
  obtain ⟨c', hc', hs⟩ := C26_set_is_history allKeys initial
  rw [hc] at hc'; injection hc' with e; subst e
  have h2 : ∀ x y : Event K, evs ++ [x, y] = (evs ++ [x]) ++ [y] := by simp
  simp only [hs, h2, cited_snoc]
  constructor <;> tauto

/-- **C26** The set never lists a key twice (so `__str__` and `__iter__` list each citation once). -/
theorem C26_nodup (allKeys initial : List K) (c : Cits K)
    (hc : new allKeys initial = .ok c) (evs : List (Event K)) : (set (perform c evs)).Nodup := by
  obtain ⟨keys, c', hc', ic, hk, -, -⟩ := new_ok allKeys initial
  rw [hc] at hc'; injection hc' with e; subst e
  have hi := (perform_inv ic evs).1
  unfold set
  rw [sorted_of_inv hi]
  generalize (perform c evs).array = arr
  have hn := hi.nodup
  clear hi ic hk
  induction keys generalizing arr with
  | nil => simp
  | cons a l ih =>
    cases arr with
    | nil => simp
    | cons b arr =>
      have := ih arr (List.nodup_cons.1 hn).2
      cases b
      · simpa using this
      · simp only [List.zip_cons_cons, List.filterMap_cons, if_true]
        refine List.nodup_cons.2 ⟨?_, this⟩
        intro hm
        rw [List.mem_filterMap] at hm
        obtain ⟨⟨x, y⟩, hxy, hx⟩ := hm
        cases y <;> simp at hx
        subst hx
        exact (List.nodup_cons.1 hn).1 (List.of_mem_zip hxy).1

example : ∃ c, new [3, 1, 2] [7] = .ok c ∧ 1 ∈ set (perform c [.register 3, .clear, .register 1]) ∧
    3 ∉ set (perform c [.register 3, .clear, .register 1]) ∧
    7 ∉ set (perform c [.register 3, .clear, .register 1]) ∧
    7 ∈ set (perform c [.register 3, .clear, .register 1, .reset]) := by
  obtain ⟨c, hc, hs⟩ := C26_set_is_history [3, 1, 2] [7]
  refine ⟨c, hc, ?_⟩
  have h2 : ([Event.register 3, .clear, .register 1] : List (Event Nat)) =
    (([] ++ [.register 3]) ++ [.clear]) ++ [.register 1] := rfl
  have h3 : ([Event.register 3, .clear, .register 1, .reset] : List (Event Nat)) =
    ((([] ++ [.register 3]) ++ [.clear]) ++ [.register 1]) ++ [.reset] := rfl
  simp only [hs, h2, h3, cited_snoc]
  simp

/-! ## Scopes -/

/-- Specification: the events a program performs on the citations object that is current when it
starts (events inside inner `collect` blocks are not among them), and whether it ends by raising.
Registering an unknown key raises. -/
def topEvents (known : List K) : Prog K → List (Event K) × Bool
  | .skip => ([], false)
  | .register k => if k ∈ known then ([.register k], false) else ([], true)
  | .clear => ([.clear], false)
  | .reset => ([.reset], false)
  | .raise => ([], true)
  | .seq p q =>
    if (topEvents known p).2 then ((topEvents known p).1, true)
    else ((topEvents known p).1 ++ (topEvents known q).1, (topEvents known q).2)
  | .tryExcept p q =>
    if (topEvents known p).2 then
      ((topEvents known p).1 ++ (topEvents known q).1, (topEvents known q).2)
    else ((topEvents known p).1, false)
  | .collect p => ([], (topEvents known p).2)
  | .withScope _ p => ([], (topEvents known p).2)

/-- The user-held scope objects entered by a program. (Specification.) -/
def scopesOf : Prog K → List Nat
  | .seq p q => scopesOf p ++ scopesOf q
  | .tryExcept p q => scopesOf p ++ scopesOf q
  | .collect p => scopesOf p
  | .withScope s p => s :: scopesOf p
  | _ => []

/-- No user-held scope object is entered again inside its own block. (Specification.) -/
def NonReentrant : Prog K → Prop
  | .seq p q => NonReentrant p ∧ NonReentrant q
  | .tryExcept p q => NonReentrant p ∧ NonReentrant q
  | .collect p => NonReentrant p
  | .withScope s p => s ∉ scopesOf p ∧ NonReentrant p
  | _ => True

/-- Every object in memory is a citations object knowing exactly the keys `known`. (Specification.) -/
def MemOK (known : List K) (m : Mem K) : Prop :=
  m.cur < m.heap.length ∧ ∀ c ∈ m.heap, ∃ keys, (∀ k, k ∈ keys ↔ k ∈ known) ∧ Inv keys c

theorem perform_append (c : Cits K) (a b : List (Event K)) :
    perform c (a ++ b) = perform (perform c a) b := by simp [perform]

/-- What execution of a program guarantees, compared with the specification. -/
structure Post (known : List K) (p : Prog K) (m : Mem K) (r : Mem K × Bool) : Prop where
  ok : MemOK known r.1
  cur : r.1.cur = m.cur
  raised : r.2 = (topEvents known p).2
  grows : m.heap.length ≤ r.1.heap.length
  others : ∀ i < m.heap.length, i ≠ m.cur → r.1.heap[i]? = m.heap[i]?
  mine : ∀ c, m.heap[m.cur]? = some c →
    r.1.heap[m.cur]? = some (perform c (topEvents known p).1)
  saved : ∀ s, s ∉ scopesOf p → r.1.saved s = m.saved s

theorem post_seq {known : List K} {p q r : Prog K} {m : Mem K} {m1 : Mem K × Bool} {m2 : Mem K × Bool}
    (h1 : Post known p m m1) (h2 : Post known q m1.1 m2)
    (he : (topEvents known r).1 = (topEvents known p).1 ++ (topEvents known q).1)
    (hr : (topEvents known r).2 = (topEvents known q).2)
    (hs : scopesOf r = scopesOf p ++ scopesOf q) : Post known r m m2 where
  ok := h2.ok
  cur := h2.cur.trans h1.cur
  raised := h2.raised.trans hr.symm
  grows := Nat.le_trans h1.grows h2.grows
  others := by
    intro i hi hne
    rw [h2.others i (Nat.lt_of_lt_of_le hi h1.grows) (by rw [h1.cur]; exact hne), h1.others i hi hne]
  mine := by
    intro c hc
    have a := h1.mine c hc
    rw [← h1.cur] at a
    have b := h2.mine _ a
    rw [h1.cur] at b
    rw [b, he, perform_append]
  saved := by
    intro s hs'
    rw [hs, List.mem_append] at hs'
    rw [h2.saved s (fun h => hs' (Or.inr h)), h1.saved s (fun h => hs' (Or.inl h))]

theorem onCur_post {known : List K} {p : Prog K} {m : Mem K} (hm : MemOK known m)
    (f : Cits K → Except PyErr (Cits K)) (e : Event K)
    (hf : ∀ keys c, (∀ k, k ∈ keys ↔ k ∈ known) → Inv keys c → f c = .ok (step c e))
    (hp : topEvents known p = ([e], false)) : Post known p m (onCur m f) := by
  obtain ⟨hlt, hall⟩ := hm
  have hget : m.heap[m.cur]? = some m.heap[m.cur] := List.getElem?_eq_getElem hlt
  obtain ⟨keys, hk, hi⟩ := hall m.heap[m.cur] (List.getElem_mem hlt)
  have hfc := hf keys _ hk hi
  have hrw : onCur m f = ({ m with heap := m.heap.set m.cur (step m.heap[m.cur] e) }, false) := by
    unfold onCur; rw [hget]; simp only [hfc]
  rw [hrw]
  refine ⟨⟨by simpa using hlt, ?_⟩, rfl, by simp [hp], by simp, ?_, ?_, fun _ _ => rfl⟩
  · intro c hc
    rcases List.mem_or_eq_of_mem_set hc with hc | rfl
    · exact hall c hc
    · exact ⟨keys, hk, (step_inv hi e).1⟩
  · intro i _ hne
    simp only
    rw [List.getElem?_set_ne (Ne.symm hne)]
  · intro c hc
    rw [hget] at hc; injection hc with hc; subst hc
    simp [hp, perform, hlt]

theorem exec_post (known : List K) (p : Prog K) (hp : NonReentrant p) (m : Mem K)
    (hm : MemOK known m) : Post known p m (exec known p m) := by
  have refl_post : ∀ (p : Prog K) (m : Mem K) (b : Bool), MemOK known m →
      topEvents known p = ([], b) → Post known p m (m, b) := by
    intro p m b hm h
    exact ⟨hm, rfl, by rw [h], Nat.le_refl _, fun _ _ _ => rfl,
      fun c hc => by rw [h]; simpa [perform] using hc, fun _ _ => rfl⟩
  induction p generalizing m with
  | skip => exact refl_post _ m false hm rfl
  | raise => exact refl_post _ m true hm rfl
  | register k =>
    by_cases hk : k ∈ known
    · refine onCur_post hm _ (.register k) ?_ (by simp [topEvents, hk])
      intro keys c hkeys hi
      obtain ⟨c', h1, _⟩ := register_ok hi ((hkeys k).2 hk)
      simp [step, h1]
    · obtain ⟨hlt, hall⟩ := hm
      obtain ⟨keys, hkeys, hi⟩ := hall m.heap[m.cur] (List.getElem_mem hlt)
      have : exec known (.register k) m = (m, true) := by
        simp only [exec, onCur, List.getElem?_eq_getElem hlt]
        rw [register_err hi (fun h => hk ((hkeys k).1 h))]
      rw [this]
      exact refl_post _ m true ⟨hlt, hall⟩ (by simp [topEvents, hk])
  | clear =>
    exact onCur_post hm _ .clear (fun _ _ _ _ => rfl) rfl
  | reset =>
    refine onCur_post hm _ .reset ?_ rfl
    intro keys c _ hi
    obtain ⟨c', h1, _⟩ := reset_ok hi
    simp [step, h1]
  | seq p q ihp ihq =>
    have h1 := ihp hp.1 m hm
    have hr := h1.raised
    rcases hx : exec known p m with ⟨m', b⟩
    rw [hx] at h1 hr
    cases b with
    | true =>
      have : exec known (.seq p q) m = (m', true) := by simp [exec, hx]
      rw [this]
      have ht : topEvents known (.seq p q) = ((topEvents known p).1, true) := by
        simp only [topEvents, ← hr, if_true]
      exact ⟨h1.ok, h1.cur, by rw [ht], h1.grows, h1.others,
        fun c hc => by rw [ht]; exact h1.mine c hc,
        fun s hs => h1.saved s (fun h => hs (by simp [scopesOf, h]))⟩
    | false =>
      have : exec known (.seq p q) m = exec known q m' := by simp [exec, hx]
      rw [this]
      have ht : topEvents known (.seq p q) =
          ((topEvents known p).1 ++ (topEvents known q).1, (topEvents known q).2) := by
        simp only [topEvents, ← hr]; rfl
      exact post_seq h1 (ihq hp.2 m' h1.ok) (by rw [ht]) (by rw [ht]) rfl
  | tryExcept p q ihp ihq =>
    have h1 := ihp hp.1 m hm
    have hr := h1.raised
    rcases hx : exec known p m with ⟨m', b⟩
    rw [hx] at h1 hr
    cases b with
    | false =>
      have : exec known (.tryExcept p q) m = (m', false) := by simp [exec, hx]
      rw [this]
      have ht : topEvents known (.tryExcept p q) = ((topEvents known p).1, false) := by
        simp only [topEvents, ← hr]; rfl
      exact ⟨h1.ok, h1.cur, by rw [ht], h1.grows, h1.others,
        fun c hc => by rw [ht]; exact h1.mine c hc,
        fun s hs => h1.saved s (fun h => hs (by simp [scopesOf, h]))⟩
    | true =>
      have : exec known (.tryExcept p q) m = exec known q m' := by simp [exec, hx]
      rw [this]
      have ht : topEvents known (.tryExcept p q) =
          ((topEvents known p).1 ++ (topEvents known q).1, (topEvents known q).2) := by
        simp only [topEvents, ← hr, if_true]
      exact post_seq h1 (ihq hp.2 m' h1.ok) (by rw [ht]) (by rw [ht]) rfl
  | collect p ih =>
    obtain ⟨keys, c, hc, ic, hk, -, -⟩ := new_ok known ([] : List K)
    have hm1 : MemOK known { m with heap := m.heap ++ [c], cur := m.heap.length } := by
      refine ⟨by simp, ?_⟩
      intro c' hc'
      simp only [List.mem_append, List.mem_singleton] at hc'
      rcases hc' with hc' | rfl
      · exact hm.2 c' hc'
      · exact ⟨keys, by simpa using hk, ic⟩
    have h := ih hp _ hm1
    have hx : exec known (.collect p) m =
        ({ (exec known p { m with heap := m.heap ++ [c], cur := m.heap.length }).1 with
            cur := m.cur },
          (exec known p { m with heap := m.heap ++ [c], cur := m.heap.length }).2) := by
      simp [exec, hc]
    rw [hx]
    have hg := h.grows
    simp only [List.length_append, List.length_singleton] at hg
    refine ⟨⟨?_, h.ok.2⟩, rfl, h.raised, ?_, ?_, ?_, fun s hs => h.saved s hs⟩
    · have := hm.1; simp only; omega
    · simp only; omega
    · intro i hi _
      rw [h.others i (by simp; omega) (by simp only; omega)]
      simp [List.getElem?_append_left hi]
    · intro c' hc'
      rw [h.others m.cur (by have := hm.1; simp; omega) (by have := hm.1; simp only; omega)]
      simp only [List.getElem?_append_left hm.1]
      simpa [topEvents, perform] using hc'
  | withScope s p ih =>
    obtain ⟨keys, c, hc, ic, hk, -, -⟩ := new_ok known ([] : List K)
    let m1 : Mem K := ⟨m.heap ++ [c], m.heap.length,
      fun s' => if s' = s then m.cur else m.saved s'⟩
    have hm1 : MemOK known m1 := by
      refine ⟨by simp [m1], ?_⟩
      intro c' hc'
      simp only [m1, List.mem_append, List.mem_singleton] at hc'
      rcases hc' with hc' | rfl
      · exact hm.2 c' hc'
      · exact ⟨keys, by simpa using hk, ic⟩
    have h := ih hp.2 m1 hm1
    have hsv : (exec known p m1).1.saved s = m.cur := by
      rw [h.saved s hp.1]; simp [m1]
    have hx : exec known (.withScope s p) m =
        ({ (exec known p m1).1 with cur := m.cur }, (exec known p m1).2) := by
      have : exec known (.withScope s p) m =
        ({ (exec known p m1).1 with cur := (exec known p m1).1.saved s }, (exec known p m1).2) := by
        simp [exec, hc, m1]
      rw [this, hsv]
    rw [hx]
    have hg := h.grows
    simp only [m1, List.length_append, List.length_singleton] at hg
    refine ⟨⟨?_, h.ok.2⟩, rfl, h.raised, ?_, ?_, ?_, ?_⟩
    · have := hm.1; simp only [m1]; omega
    · simp only [m1]; omega
    · intro i hi _
      have := h.others i (by simp [m1]; omega) (by simp only [m1]; omega)
      simp only [this]
      simp [m1, List.getElem?_append_left hi]
    · intro c' hc'
      have := h.others m.cur (by have := hm.1; simp [m1]; omega)
        (by have := hm.1; simp only [m1]; omega)
      simp only [this]
      simp only [m1, List.getElem?_append_left hm.1]
      simpa [topEvents, perform] using hc'
    · intro s' hs'
      simp only [scopesOf, List.mem_cons, not_or] at hs'
      have := h.saved s' hs'.2
      simp only [this]
      simp [m1, hs'.1]

/-- **C25** `with flavio.citations.collect() as c: p`, for every program `p` (with nested scopes and
exceptions) and in every reachable memory:
the object bound to `flavio.citations` is the same before and after, even if `p` raises, and it and all
other objects existing before are unchanged; an exception is propagated iff `p` raises;
and the object `c` created for the block contains exactly the known keys cited by the calls made
directly in the block (not in inner blocks). -/
theorem C25_collect_scope (known : List K) (p : Prog K) (hp : NonReentrant p) (m : Mem K)
    (hm : MemOK known m) :
    let r := exec known (.collect p) m
    r.1.cur = m.cur ∧
    (∀ i < m.heap.length, r.1.heap[i]? = m.heap[i]?) ∧
    r.2 = (topEvents known p).2 ∧
    ∃ c, r.1.heap[m.heap.length]? = some c ∧
      ∀ k, k ∈ set c ↔ Cited [] (topEvents known p).1 k ∧ k ∈ known := by
  obtain ⟨keys, c, hc, ic, hk, hi, hs⟩ := new_ok known ([] : List K)
  have hm1 : MemOK known { m with heap := m.heap ++ [c], cur := m.heap.length } := by
    refine ⟨by simp, ?_⟩
    intro c' hc'
    simp only [List.mem_append, List.mem_singleton] at hc'
    rcases hc' with hc' | rfl
    · exact hm.2 c' hc'
    · exact ⟨keys, by simpa using hk, ic⟩
  have h := exec_post known p hp _ hm1
  have hx : exec known (.collect p) m =
      ({ (exec known p { m with heap := m.heap ++ [c], cur := m.heap.length }).1 with
          cur := m.cur },
        (exec known p { m with heap := m.heap ++ [c], cur := m.heap.length }).2) := by
    simp [exec, hc]
  simp only [hx]
  refine ⟨trivial, ?_, h.raised, ?_⟩
  · intro i hi
    rw [h.others i (by simp; omega) (by simp only; omega)]
    simp [List.getElem?_append_left hi]
  · refine ⟨_, h.mine c (by simp), ?_⟩
    intro k
    rw [set_perform ic (fun k => (hs k).trans (hi k).symm), hk]
    simp [Cited, hi]

/-- **C25** Any program with properly nested scopes leaves `flavio.citations` bound to the object it
found, touches no other existing object, and has on that object exactly the effect of its direct
calls. -/
theorem C25_program_effect (known : List K) (p : Prog K) (hp : NonReentrant p) (m : Mem K)
    (hm : MemOK known m) :
    let r := exec known p m
    r.1.cur = m.cur ∧ r.2 = (topEvents known p).2 ∧
    (∀ i < m.heap.length, i ≠ m.cur → r.1.heap[i]? = m.heap[i]?) ∧
    (∀ c, m.heap[m.cur]? = some c → r.1.heap[m.cur]? = some (perform c (topEvents known p).1)) ∧
    MemOK known r.1 := by
  have h := exec_post known p hp m hm
  exact ⟨h.cur, h.raised, h.others, h.mine, h.ok⟩

/-- **C25** Limit of the property: one scope *object* entered twice, the second time inside its own
block, does not restore the original citations object (`_citations_global` is overwritten by the
inner entry).  `with flavio.citations.collect()` always makes a new object and is not affected. -/
theorem C25_reentrant_scope_not_restored (known : List K) (c : Cits K) (sv : Nat → Nat) :
    (exec known (.withScope 0 (.withScope 0 .skip)) ⟨[c], 0, sv⟩).1.cur ≠ 0 := by
  obtain ⟨keys, c', hc, -⟩ := new_ok known ([] : List K)
  simp [exec, hc]

/-- The start-up memory (`sys.modules[__name__] = Citations([...])`, citations.py l.87) satisfies
`MemOK` when the initial citation is in `citations.yml`. -/
theorem memOK_start (allKeys initial : List K) (h : ∀ k ∈ initial, k ∈ allKeys) (c : Cits K)
    (hc : new allKeys initial = .ok c) (sv : Nat → Nat) : MemOK allKeys ⟨[c], 0, sv⟩ := by
  obtain ⟨keys, c', hc', ic, hk, -, -⟩ := new_ok allKeys initial
  rw [hc] at hc'; injection hc' with e; subst e
  refine ⟨by simp, ?_⟩
  intro c' hc'
  simp at hc'; subst hc'
  exact ⟨keys, fun k => by rw [hk]; have := h k; tauto, ic⟩

/-- Concrete instance: registering 1, then in a block 2 and (in an inner block that raises) 3. -/
example (c : Cits Nat) (hc : new [1, 2, 3] [] = .ok c) :
    let p : Prog Nat := .seq (.register 2) (.collect (.seq (.register 3) .raise))
    let r := exec [1, 2, 3] (.collect p) ⟨[c], 0, fun _ => 0⟩
    r.1.cur = 0 ∧ r.2 = true ∧ ∃ c', r.1.heap[1]? = some c' ∧ ∀ k, k ∈ set c' ↔ k = 2 := by
  have hm := memOK_start [1, 2, 3] [] (by simp) c hc (fun _ => 0)
  obtain ⟨h1, h2, h3, c', h4, h5⟩ := C25_collect_scope [1, 2, 3]
    (.seq (.register 2) (.collect (.seq (.register 3) .raise))) (by simp [NonReentrant]) _ hm
  refine ⟨h1, h3.trans (by simp [topEvents]), c', h4, fun k => ?_⟩
  rw [h5]
  have : (topEvents [1, 2, 3] (.seq (.register 2) (.collect (.seq (.register 3) .raise)))).1 =
      [] ++ [Event.register 2] := by simp [topEvents]
  rw [this, cited_snoc]
  have : ¬ Cited ([] : List Nat) [] k := by simp [Cited]
  simp [this]; rintro rfl; simp

end Verif.Citations
