import Verif.Memo.Model
import Verif.Citations.Theorems
/-!
# Memoisation: when a cached function behaves like the function itself

The vocabulary of the statements: a *history* `h` is any list of calls and in-place modifications;
`okCalls body h` are the arguments of the calls of `h` on which the function does not raise.
-/
set_option linter.unusedSectionVars false
set_option linter.unusedSimpArgs false
set_option linter.unusedVariables false
namespace Verif.Memo
open Verif.Py

variable {K V : Type} [DecidableEq K]

/-- Does the function return normally on these arguments?  (Specification.) -/
def returns (body : K → Except PyErr V) (k : K) : Bool :=
  match body k with
  | .ok _ => true
  | .error _ => false

/-- Specification: the arguments of the successful calls of a history, in order. -/
def okCalls (body : K → Except PyErr V) (h : List (Ev K V)) : List K :=
  h.filterMap (fun e => match e with
    | .call k => if returns body k then some k else none
    | .write _ _ => none)

/-- Specification: "making `k` the most recently used key". -/
def touch (r : List K) (k : K) : List K := k :: r.filter (fun x => decide (x ≠ k))

/-- Specification: `m` keys still fit. -/
def fits (maxsize : Option Nat) (m : Nat) : Prop :=
  match maxsize with
  | none => True
  | some n => m < n

theorem foldl_touch (l r : List K) :
    l.foldl touch r = l.dedup.reverse ++ r.filter (fun x => decide (x ∉ l)) := by
  induction l generalizing r with
  | nil => simp
  | cons k l ih =>
    rw [List.foldl_cons, ih]
    by_cases hk : k ∈ l
    · rw [List.dedup_cons_of_mem hk]
      congr 1
      unfold touch
      rw [List.filter_cons, if_neg (by simpa using hk), List.filter_filter]
      apply List.filter_congr
      intro x _
      simp only [List.mem_cons, not_or, Bool.decide_and]
      exact Bool.and_comm _ _
    · rw [List.dedup_cons_of_notMem hk]
      unfold touch
      rw [List.filter_cons, if_pos (by simpa using hk), List.filter_filter, List.reverse_cons,
        List.append_assoc]
      congr 1
      simp only [List.singleton_append, List.cons.injEq, true_and]
      apply List.filter_congr
      intro x _
      simp only [List.mem_cons, not_or, Bool.decide_and]
      exact Bool.and_comm _ _

theorem touch_nodup {r : List K} (h : r.Nodup) (k : K) : (touch r k).Nodup := by
  unfold touch
  refine List.nodup_cons.2 ⟨by simp, h.filter _⟩

/-- Keys in the cache, most recent first. (Specification.) -/
abbrev keysOf (s : State K V) : List K := s.cache.map (·.1)

theorem lookup_none_iff (c : List (K × Nat)) (k : K) : lookup c k = none ↔ k ∉ c.map (·.1) := by
  unfold lookup
  rw [Option.map_eq_none_iff, List.find?_eq_none]
  simp only [decide_eq_true_eq, List.mem_map, not_exists, not_and]

theorem lookup_some_mem {c : List (K × Nat)} {k : K} {a : Nat} (h : lookup c k = some a) : (k, a) ∈ c := by
  unfold lookup at h
  obtain ⟨e, he, rfl⟩ := Option.map_eq_some_iff.1 h
  have h1 := List.find?_some he
  simp only [decide_eq_true_eq] at h1
  subst h1
  exact List.mem_of_find?_eq_some he

theorem lookup_of_mem_nodup {c : List (K × Nat)} (hn : (c.map (·.1)).Nodup) {k : K} {a : Nat}
    (h : (k, a) ∈ c) : lookup c k = some a := by
  cases hl : lookup c k with
  | none => exact absurd (List.mem_map.2 ⟨_, h, rfl⟩) ((lookup_none_iff _ _).1 hl)
  | some b =>
    have hb := lookup_some_mem hl
    have : (k, b) = (k, a) := List.inj_on_of_nodup_map hn hb h rfl
    simp_all

theorem map_trunc {α β : Type} (f : α → β) (m : Option Nat) (l : List α) :
    (trunc m l).map f = trunc m (l.map f) := by
  cases m <;> simp [trunc, List.map_take]

theorem mem_trunc {α : Type} {m : Option Nat} {l : List α} {x : α} (h : x ∈ trunc m l) : x ∈ l := by
  cases m with
  | none => exact h
  | some n => exact List.mem_of_mem_take h

theorem nodup_trunc {α : Type} (m : Option Nat) {l : List α} (h : l.Nodup) : (trunc m l).Nodup := by
  cases m with
  | none => exact h
  | some n => exact h.sublist (List.take_sublist _ _)

theorem map_filter_ne (c : List (K × Nat)) (k : K) :
    (c.filter (fun e => decide (e.1 ≠ k))).map (·.1) = (c.map (·.1)).filter (fun x => decide (x ≠ k)) := by
  rw [List.filter_map]; rfl

/-- "touching" commutes with keeping the most recent keys. -/
theorem trunc_touch (m : Option Nat) {r : List K} (hr : r.Nodup) (k : K) :
    (k ∈ trunc m r → touch (trunc m r) k = trunc m (touch r k)) ∧
    (k ∉ trunc m r → trunc m (k :: trunc m r) = trunc m (touch r k)) := by
  cases m with
  | none =>
    refine ⟨fun _ => rfl, fun h => ?_⟩
    simp only [trunc, touch] at h ⊢
    rw [List.filter_eq_self.2]
    intro x hx
    simp only [decide_eq_true_eq]
    rintro rfl; exact h hx
  | some n =>
    constructor
    · intro h
      simp only [trunc, touch] at h ⊢
      have hlen : 0 < n := by
        rcases Nat.eq_zero_or_pos n with h0 | h0
        · subst h0; simp at h
        · exact h0
      obtain ⟨n, rfl⟩ : ∃ m, n = m + 1 := ⟨n - 1, by omega⟩
      obtain ⟨a, b, hab⟩ := List.append_of_mem h
      have hnd : (r.take (n + 1)).Nodup := hr.sublist (List.take_sublist _ _)
      have hr2 : r = a ++ k :: (b ++ r.drop (n + 1)) := by
        conv_lhs => rw [← List.take_append_drop (n + 1) r, hab]
        simp
      have hka : k ∉ a ∧ k ∉ b ++ r.drop (n + 1) := by
        rw [hr2] at hr
        have := List.nodup_append.1 hr
        refine ⟨fun hk => this.2.2 k hk k (by simp) rfl, ?_⟩
        exact (List.nodup_cons.1 this.2.1).1
      have hfa : ∀ l : List K, k ∉ l → l.filter (fun x => decide (x ≠ k)) = l := by
        intro l hl
        refine List.filter_eq_self.2 (fun x hx => ?_)
        simp only [decide_eq_true_eq]
        rintro rfl; exact hl hx
      have hb : k ∉ b := fun hk => hka.2 (List.mem_append_left _ hk)
      rw [List.take_succ_cons]
      congr 1
      rw [hab]
      have e1 : r.filter (fun x => decide (x ≠ k)) = a ++ (b ++ r.drop (n + 1)) := by
        conv_lhs => rw [hr2]
        rw [List.filter_append, List.filter_cons, if_neg (by simp), hfa _ hka.1, hfa _ hka.2]
      rw [e1, List.filter_append, List.filter_cons, if_neg (by simp), hfa _ hka.1, hfa _ hb]
      have hl : (r.take (n + 1)).length = a.length + 1 + b.length := by rw [hab]; simp; omega
      rw [List.length_take] at hl
      by_cases hd : n + 1 ≤ r.length
      · rw [Nat.min_eq_left hd] at hl
        rw [← List.append_assoc, List.take_left' (by simp; omega)]
      · have hnil : r.drop (n + 1) = [] := List.drop_eq_nil_of_le (by omega)
        rw [hnil, List.append_nil, List.take_of_length_le]
        rw [Nat.min_eq_right (by omega)] at hl
        simp; omega
    · intro h
      simp only [trunc, touch] at h ⊢
      rcases n with _ | n
      · simp
      · rw [List.take_succ_cons, List.take_succ_cons]
        congr 1
        rw [List.take_take, Nat.min_eq_left (by omega)]
        by_cases hk : k ∈ r
        · obtain ⟨a, b, hab⟩ := List.append_of_mem hk
          have hka : k ∉ a := by
            rw [hab] at hr
            exact fun hk => (List.nodup_append.1 hr).2.2 k hk k (by simp) rfl
          have hla : n + 1 ≤ a.length := by
            by_contra hlt
            apply h
            rw [hab, List.take_append]
            refine List.mem_append_right _ ?_
            obtain ⟨j, hj⟩ : ∃ j, n + 1 - a.length = j + 1 := ⟨n - a.length, by omega⟩
            rw [hj, List.take_succ_cons]; simp
          have hfa : a.filter (fun x => decide (x ≠ k)) = a := by
            refine List.filter_eq_self.2 (fun x hx => ?_)
            simp only [decide_eq_true_eq]
            rintro rfl; exact hka hx
          rw [hab, List.filter_append, hfa, List.take_append_of_le_length (by omega),
            List.take_append_of_le_length (by omega)]
        · rw [List.filter_eq_self.2]
          intro x hx
          simp only [decide_eq_true_eq]
          rintro rfl; exact hk hx

/-- What a call does to the list of cached keys. -/
theorem keys_call (m : Option Nat) (body : K → Except PyErr V) (s : State K V) (k : K) (r : List K)
    (hr : r.Nodup) (hs : keysOf s = trunc m r)
    (hok : k ∈ trunc m r → returns body k = true) :
    keysOf (call m body s k).2 = trunc m (if returns body k then touch r k else r) := by
  unfold call
  cases hl : lookup s.cache k with
  | some a =>
    have hk : k ∈ trunc m r := by
      rw [← hs]; exact List.mem_map.2 ⟨_, lookup_some_mem hl, rfl⟩
    rw [if_pos (hok hk), ← (trunc_touch m hr k).1 hk, ← hs]
    simp only [keysOf, List.map_cons, touch, map_filter_ne]
  | none =>
    have hk : k ∉ trunc m r := by rw [← hs]; exact (lookup_none_iff _ _).1 hl
    unfold miss returns
    cases hb : body k with
    | error e => simpa using hs
    | ok v =>
      simp only [if_true]
      rw [← (trunc_touch m hr k).2 hk, ← hs]
      simp only [keysOf, map_trunc, List.map_cons]

/-- The invariant of a state after a history `h`. (Specification.) -/
structure Inv (m : Option Nat) (body : K → Except PyErr V) (h : List (Ev K V)) (s : State K V) : Prop where
  keys : keysOf s = trunc m ((okCalls body h).foldl touch [])
  addr : ∀ e ∈ s.cache, e.2 < s.heap.length

theorem foldl_touch_nodup (l : List K) : (l.foldl touch []).Nodup := by
  rw [foldl_touch]; simp [List.nodup_dedup]

theorem mem_foldl_touch (l : List K) (k : K) : k ∈ l.foldl touch [] ↔ k ∈ l := by
  rw [foldl_touch]; simp

theorem okCalls_returns {body : K → Except PyErr V} {h : List (Ev K V)} {k : K} (hk : k ∈ okCalls body h) :
    returns body k = true := by
  unfold okCalls at hk
  obtain ⟨e, -, he⟩ := List.mem_filterMap.1 hk
  cases e with
  | write a v => cases he
  | call k' =>
    simp only at he
    split_ifs at he with hh
    cases he; exact hh

theorem okCalls_append (body : K → Except PyErr V) (h h' : List (Ev K V)) :
    okCalls body (h ++ h') = okCalls body h ++ okCalls body h' := by
  simp [okCalls]

theorem addr_call {m : Option Nat} {body : K → Except PyErr V} {s : State K V}
    (hs : ∀ e ∈ s.cache, e.2 < s.heap.length) (k : K) :
    ∀ e ∈ (call m body s k).2.cache, e.2 < (call m body s k).2.heap.length := by
  unfold call
  cases hl : lookup s.cache k with
  | some a =>
    intro e he
    rcases List.mem_cons.1 he with rfl | he
    · exact hs _ (lookup_some_mem hl)
    · exact hs _ (List.mem_of_mem_filter he)
  | none =>
    unfold miss
    cases hb : body k with
    | error e => exact hs
    | ok v =>
      intro e he
      have := mem_trunc he
      simp only [List.length_append, List.length_cons, List.length_nil]
      rcases List.mem_cons.1 this with rfl | he
      · simp
      · have := hs _ he; omega

theorem run_inv (m : Option Nat) (body : K → Except PyErr V) (h : List (Ev K V)) : Inv m body h (run m body h) := by
  induction h using List.reverseRecOn with
  | nil => exact ⟨by cases m <;> simp [run, okCalls, trunc], by simp [run]⟩
  | append_singleton h e ih =>
    have hrun : run m body (h ++ [e]) = step m body (run m body h) e := by simp [run]
    rw [hrun]
    cases e with
    | write a v =>
      refine ⟨?_, ?_⟩
      · rw [okCalls_append]
        simpa [okCalls, step] using ih.keys
      · intro e he
        simpa [step] using ih.addr e he
    | call k =>
      refine ⟨?_, addr_call ih.addr k⟩
      have hnd := foldl_touch_nodup (okCalls body h)
      rw [show step m body (run m body h) (.call k) = (call m body (run m body h) k).2 from rfl,
        keys_call m body _ k _ hnd ih.keys (fun hk => okCalls_returns ((mem_foldl_touch _ _).1 (mem_trunc hk))),
        okCalls_append, List.foldl_append]
      cases hk : returns body k <;> simp [okCalls, hk]

/-! ## C153: least recently used -/

/-- **C153.** After every history the cache holds exactly the `maxsize` most recently used argument lists
(all of them when `maxsize=None`, none when it is 0), most recent first: `l.dedup.reverse` lists the distinct
elements of `l` by decreasing position of the last occurrence. -/
theorem C153_contents (m : Option Nat) (body : K → Except PyErr V) (h : List (Ev K V)) :
    keysOf (run m body h) = trunc m (okCalls body h).dedup.reverse := by
  rw [(run_inv m body h).keys, foldl_touch]; simp

/-- **C153.** The cache never exceeds its size. -/
theorem C153_bounded (n : Nat) (body : K → Except PyErr V) (h : List (Ev K V)) :
    (run (some n) body h).cache.length ≤ n := by
  have := congrArg List.length (C153_contents (some n) body h)
  rw [List.length_map] at this
  rw [this]; simp only [trunc, List.length_take]; omega

theorem ran_iff (m : Option Nat) (body : K → Except PyErr V) (s : State K V) (k : K) :
    (call m body s k).1.ran = true ↔ k ∉ keysOf s := by
  rw [← lookup_none_iff s.cache k]
  unfold call
  cases hl : lookup s.cache k with
  | some a => simp
  | none =>
    unfold miss
    cases hb : body k <;> simp

theorem ran_of_raises (m : Option Nat) (body : K → Except PyErr V) (h : List (Ev K V)) (k : K)
    (hk : returns body k = false) : (call m body (run m body h) k).1.ran = true := by
  rw [ran_iff, C153_contents]
  intro hm
  have := okCalls_returns (body := body) (h := h) (k := k) (by simpa using mem_trunc hm)
  simp [hk] at this

/-- **C153.** When is the body executed again?  A call with arguments used successfully before is answered from
the cache exactly when fewer than `maxsize` other argument lists were used since. -/
theorem C153_recomputed_iff (m : Option Nat) (body : K → Except PyErr V) (h₁ h₂ : List (Ev K V)) (k : K)
    (hk : returns body k = true) (hlast : k ∉ okCalls body h₂) :
    (call m body (run m body (h₁ ++ .call k :: h₂)) k).1.ran = false ↔
      fits m (okCalls body h₂).dedup.length := by
  have h0 : (call m body (run m body (h₁ ++ .call k :: h₂)) k).1.ran = false ↔
      k ∈ keysOf (run m body (h₁ ++ .call k :: h₂)) := by
    rw [← not_iff_not, ← ran_iff m body]; simp
  rw [h0, C153_contents, okCalls_append]
  have e1 : okCalls body (.call k :: h₂) = k :: okCalls body h₂ := by simp [okCalls, hk]
  rw [e1]
  generalize okCalls body h₁ = l₁ at *
  generalize okCalls body h₂ = l₂ at *
  have e2 : (l₁ ++ k :: l₂).dedup.reverse =
      l₂.dedup.reverse ++ k :: (touch (l₁.foldl touch []) k).tail.filter (fun x => decide (x ∉ l₂)) := by
    have := foldl_touch (l₁ ++ k :: l₂) ([] : List K)
    simp only [List.filter_nil, List.append_nil] at this
    rw [← this, List.foldl_append, List.foldl_cons, foldl_touch l₂]
    congr 1
    conv_lhs => unfold touch
    rw [List.filter_cons, if_pos (by simpa using hlast)]
    rfl
  rw [e2]
  cases m with
  | none => simp [trunc, fits]
  | some n =>
    simp only [trunc, fits]
    have hnot : k ∉ l₂.dedup.reverse := by simpa using hlast
    constructor
    · intro hm
      by_contra hlt
      rw [List.take_append_of_le_length (by simp; omega)] at hm
      exact hnot (List.mem_of_mem_take hm)
    · intro hlt
      rw [List.take_append]
      refine List.mem_append_right _ ?_
      rw [List.length_reverse]
      obtain ⟨j, hj⟩ : ∃ j, n - l₂.dedup.length = j + 1 := ⟨n - l₂.dedup.length - 1, by omega⟩
      rw [hj, List.take_succ_cons]; simp

/-- **C153.** Arguments never used successfully before are never answered from the cache. -/
theorem C153_first_use (m : Option Nat) (body : K → Except PyErr V) (h : List (Ev K V)) (k : K)
    (hk : k ∉ okCalls body h) : (call m body (run m body h) k).1.ran = true := by
  rw [ran_iff, C153_contents]
  intro hm
  exact hk (by simpa using mem_trunc hm)

/-- **C153.** Exceptions are not remembered: a failing call always executes the body, raises its exception and
leaves the cache as it was. -/
theorem C153_exceptions (m : Option Nat) (body : K → Except PyErr V) (h : List (Ev K V)) (k : K) (e : PyErr)
    (he : body k = .error e) :
    (call m body (run m body h) k).1.res = .error e ∧ (call m body (run m body h) k).1.ran = true ∧
      (call m body (run m body h) k).2 = run m body h := by
  have hk : returns body k = false := by simp [returns, he]
  have hr := ran_of_raises m body h k hk
  rw [ran_iff, ← lookup_none_iff (run m body h).cache k] at hr
  unfold call
  rw [hr]
  simp [miss, he]

/-! ## C153: values -/

/-- The address returned by a call (if it returned). (Specification.) -/
def addrOf (r : Outcome × State K V) : Option Nat :=
  match r.1.res with
  | .ok a => some a
  | .error _ => none

/-- Specification: during `h`, no object that a call with arguments `k` has returned is modified. -/
def NotModified (m : Option Nat) (body : K → Except PyErr V) (h : List (Ev K V)) (k : K) : Prop :=
  ∀ h₁ h₂ h₃ : List (Ev K V), ∀ a v, h = h₁ ++ .call k :: (h₂ ++ .write a v :: h₃) →
    addrOf (call m body (run m body h₁) k) ≠ some a

/-- The invariant of the returned objects: every address handed out for `k'` is distinct from the addresses
handed out for other keys, and the cached object of `k` is intact if it has not been modified. -/
theorem cache_origin (m : Option Nat) (body : K → Except PyErr V) (h : List (Ev K V)) :
    ∀ e ∈ (run m body h).cache, ∃ h₁ h₂ : List (Ev K V), h = h₁ ++ .call e.1 :: h₂ ∧
      addrOf (call m body (run m body h₁) e.1) = some e.2 := by
  induction h using List.reverseRecOn with
  | nil => intro e he; simp [run] at he
  | append_singleton h ev ih =>
    have hrun : run m body (h ++ [ev]) = step m body (run m body h) ev := by simp [run]
    intro e he
    rw [hrun] at he
    have old : e ∈ (run m body h).cache → ∃ h₁ h₂ : List (Ev K V), h ++ [ev] = h₁ ++ .call e.1 :: h₂ ∧
        addrOf (call m body (run m body h₁) e.1) = some e.2 := by
      intro hm
      obtain ⟨h₁, h₂, e1, e2⟩ := ih e hm
      exact ⟨h₁, h₂ ++ [ev], by rw [e1]; simp, e2⟩
    cases ev with
    | write a v => exact old he
    | call k =>
      change e ∈ (call m body (run m body h) k).2.cache at he
      have hcall : e = (k, e.2) ∧ addrOf (call m body (run m body h) k) = some e.2 ∨
          e ∈ (run m body h).cache := by
        unfold call at he ⊢
        cases hl : lookup (run m body h).cache k with
        | some a =>
          rw [hl] at he
          rcases List.mem_cons.1 he with rfl | he
          · exact .inl ⟨rfl, rfl⟩
          · exact .inr (List.mem_of_mem_filter he)
        | none =>
          rw [hl] at he
          unfold miss at he ⊢
          cases hb : body k with
          | error _ => rw [hb] at he; exact .inr he
          | ok v =>
            rw [hb] at he
            rcases List.mem_cons.1 (mem_trunc he) with rfl | he
            · exact .inl ⟨rfl, rfl⟩
            · exact .inr he
      rcases hcall with ⟨e1, e2⟩ | hm
      · have hk : e.1 = k := by rw [e1]
        refine ⟨h, [], by rw [hk], by rw [hk]; exact e2⟩
      · exact old hm

theorem heap_intact (m : Option Nat) (body : K → Except PyErr V) (h : List (Ev K V)) (k : K) (v : V)
    (hb : body k = .ok v) (hn : NotModified m body h k) :
    ∀ a, (k, a) ∈ (run m body h).cache → (run m body h).heap[a]? = some v := by
  induction h using List.reverseRecOn with
  | nil => intro a ha; simp [run] at ha
  | append_singleton h ev ih =>
    have hrun : run m body (h ++ [ev]) = step m body (run m body h) ev := by simp [run]
    have hn' : NotModified m body h k := by
      intro h₁ h₂ h₃ a w e
      exact hn h₁ h₂ (h₃ ++ [ev]) a w (by rw [e]; simp)
    intro a ha
    rw [hrun] at ha ⊢
    cases ev with
    | write b w =>
      change (k, a) ∈ (run m body h).cache at ha
      have hi := ih hn' a ha
      change ((run m body h).heap.set b w)[a]? = some v
      rw [List.getElem?_set_ne, hi]
      rintro rfl
      obtain ⟨h₁, h₂, e1, e2⟩ := cache_origin m body h _ ha
      exact hn h₁ h₂ [] b w (by rw [e1]; simp) e2
    | call k' =>
      change (k, a) ∈ (call m body (run m body h) k').2.cache at ha
      change (call m body (run m body h) k').2.heap[a]? = some v
      unfold call at ha ⊢
      cases hl : lookup (run m body h).cache k' with
      | some b =>
        rw [hl] at ha
        rcases List.mem_cons.1 ha with e | he
        · cases e; exact ih hn' _ (lookup_some_mem hl)
        · exact ih hn' _ (List.mem_of_mem_filter he)
      | none =>
        rw [hl] at ha
        unfold miss at ha ⊢
        cases hb' : body k' with
        | error _ => rw [hb'] at ha; exact ih hn' _ ha
        | ok w =>
          rw [hb'] at ha
          rcases List.mem_cons.1 (mem_trunc ha) with e | he
          · cases e
            rw [hb] at hb'; cases hb'
            simp
          · have := ih hn' _ he
            have hlt := (run_inv m body h).addr _ he
            simp only at hlt ⊢
            rw [List.getElem?_append_left hlt]; exact this

/-- **C153.** Memoisation is transparent: after every history in which no object returned for the arguments `k`
was modified in place, calling with `k` gives what the undecorated function gives — whatever other calls were
made, whatever was evicted, and whatever was done to the results of calls with other arguments. -/
theorem C153_transparent_partial (m : Option Nat) (body : K → Except PyErr V) (h : List (Ev K V)) (k : K)
    (hn : NotModified m body h k) :
    value (call m body (run m body h) k) = (body k).map some := by
  cases hb : body k with
  | error e =>
    have := C153_exceptions m body h k e hb
    simp [value, this.1, Except.map]
  | ok v =>
    unfold call
    cases hl : lookup (run m body h).cache k with
    | some a =>
      simp only [value, Except.map]
      rw [heap_intact m body h k v hb hn a (lookup_some_mem hl)]
    | none =>
      simp [miss, hb, value, Except.map]

/-- **C153.** Results for different arguments are different objects. -/
theorem C153_no_sharing (m : Option Nat) (body : K → Except PyErr V) (h₁ h₂ : List (Ev K V)) (k k' : K) (a : Nat)
    (h1 : addrOf (call m body (run m body h₁) k) = some a)
    (h2 : addrOf (call m body (run m body (h₁ ++ .call k :: h₂)) k') = some a) : k = k' := by
  -- objects handed out for a key stay below the heap size and are cached, if at all, under that key
  have grow : ∀ h₂ : List (Ev K V), a < (run m body (h₁ ++ .call k :: h₂)).heap.length ∧
      ∀ e ∈ (run m body (h₁ ++ .call k :: h₂)).cache, e.2 = a → e.1 = k := by
    intro h₂
    induction h₂ using List.reverseRecOn with
    | nil =>
      have hrun : run m body (h₁ ++ [.call k]) = (call m body (run m body h₁) k).2 := by simp [run, step]
      rw [hrun]
      have hu : ∀ e ∈ (run m body h₁).cache, ∀ e' ∈ (run m body h₁).cache, e.2 = e'.2 → e = e' := by
        -- addresses in the cache are pairwise different
        have : ∀ h : List (Ev K V), ((run m body h).cache.map (·.2)).Nodup := by
          intro h
          induction h using List.reverseRecOn with
          | nil => simp [run]
          | append_singleton h ev ih =>
            have hrun : run m body (h ++ [ev]) = step m body (run m body h) ev := by simp [run]
            rw [hrun]
            cases ev with
            | write b w => exact ih
            | call k' =>
              change ((call m body (run m body h) k').2.cache.map (·.2)).Nodup
              have hkn : (keysOf (run m body h)).Nodup := by
                rw [(run_inv m body h).keys]; exact nodup_trunc _ (foldl_touch_nodup _)
              unfold call
              cases hl : lookup (run m body h).cache k' with
              | some b =>
                simp only [List.map_cons]
                refine List.nodup_cons.2 ⟨?_, ?_⟩
                · intro hb
                  obtain ⟨e, he, heb⟩ := List.mem_map.1 hb
                  have h1 := List.mem_filter.1 he
                  have h2 : e = (k', b) := List.inj_on_of_nodup_map ih h1.1 (lookup_some_mem hl) heb
                  simp [h2] at h1
                · exact ih.sublist ((List.filter_sublist).map _)
              | none =>
                unfold miss
                cases hb : body k' with
                | error _ => exact ih
                | ok w =>
                  simp only [map_trunc, List.map_cons]
                  refine nodup_trunc _ (List.nodup_cons.2 ⟨?_, ih⟩)
                  intro hm
                  obtain ⟨e, he, heb⟩ := List.mem_map.1 hm
                  have := (run_inv m body h).addr _ he
                  omega
        intro e he e' he' hee
        exact List.inj_on_of_nodup_map (this h₁) he he' hee
      revert h1
      unfold call
      cases hl : lookup (run m body h₁).cache k with
      | some b =>
        intro h1
        cases h1
        refine ⟨(run_inv m body h₁).addr _ (lookup_some_mem hl), ?_⟩
        intro e he hea
        rcases List.mem_cons.1 he with rfl | he
        · rfl
        · have := hu e (List.mem_of_mem_filter he) _ (lookup_some_mem hl) hea
          rw [this]
      | none =>
        unfold miss
        cases hb : body k with
        | error _ => intro h1; cases h1
        | ok w =>
          intro h1
          cases h1
          refine ⟨by simp, ?_⟩
          intro e he hea
          rcases List.mem_cons.1 (mem_trunc he) with rfl | he
          · rfl
          · have := (run_inv m body h₁).addr _ he
            omega
    | append_singleton h₂ ev ih =>
      have hrun : run m body (h₁ ++ .call k :: (h₂ ++ [ev])) = step m body (run m body (h₁ ++ .call k :: h₂)) ev := by
        simp [run]
      rw [hrun]
      generalize run m body (h₁ ++ .call k :: h₂) = s at ih ⊢
      cases ev with
      | write b w => exact ⟨by simpa [step] using ih.1, ih.2⟩
      | call k'' =>
        change a < (call m body s k'').2.heap.length ∧ ∀ e ∈ (call m body s k'').2.cache, e.2 = a → e.1 = k
        unfold call
        cases hl : lookup s.cache k'' with
        | some b =>
          refine ⟨ih.1, fun e he hea => ?_⟩
          rcases List.mem_cons.1 he with rfl | he
          · exact ih.2 _ (lookup_some_mem hl) hea
          · exact ih.2 _ (List.mem_of_mem_filter he) hea
        | none =>
          unfold miss
          cases hb : body k'' with
          | error _ => exact ih
          | ok w =>
            refine ⟨by simp only [List.length_append, List.length_cons, List.length_nil]; have := ih.1; omega,
              fun e he hea => ?_⟩
            rcases List.mem_cons.1 (mem_trunc he) with rfl | he
            · have := ih.1
              simp only at hea
              omega
            · exact ih.2 _ he hea
  obtain ⟨g1, g2⟩ := grow h₂
  revert h2
  generalize run m body (h₁ ++ .call k :: h₂) = s at g1 g2 ⊢
  unfold call
  cases hl : lookup s.cache k' with
  | some b =>
    intro h2; cases h2
    exact (g2 _ (lookup_some_mem hl) rfl).symm
  | none =>
    unfold miss
    cases hb : body k' with
    | error _ => intro h2; cases h2
    | ok w =>
      intro h2
      cases h2
      omega

/-- **C153 (why only partial).** A cached result is shared: whatever happened before, if the caller modifies the
object it got from a successful call and calls again with the same arguments, it gets the modified object back
(for any cache that holds at least one entry) — the second result is not the value of the function. -/
theorem C153_modified_result_is_returned (m : Option Nat) (hm : m ≠ some 0) (body : K → Except PyErr V)
    (h : List (Ev K V)) (k : K) (a : Nat) (w : V)
    (ha : addrOf (call m body (run m body h) k) = some a) :
    value (call m body (run m body (h ++ [.call k, .write a w])) k) = .ok (some w) := by
  have hrun : run m body (h ++ [.call k, .write a w]) =
      { (call m body (run m body h) k).2 with heap := (call m body (run m body h) k).2.heap.set a w } := by
    simp [run, step]
  have hfirst : ∃ rest, (call m body (run m body h) k).2.cache = (k, a) :: rest := by
    revert ha
    unfold call
    cases hl : lookup (run m body h).cache k with
    | some b => intro ha; cases ha; exact ⟨_, rfl⟩
    | none =>
      unfold miss
      cases hb : body k with
      | error _ => intro ha; cases ha
      | ok v =>
        intro ha; cases ha
        cases m with
        | none => exact ⟨_, rfl⟩
        | some n =>
          rcases n with _ | n
          · exact absurd rfl hm
          · exact ⟨_, List.take_succ_cons⟩
  have hlt : a < (call m body (run m body h) k).2.heap.length := by
    obtain ⟨rest, hr⟩ := hfirst
    exact addr_call (run_inv m body h).addr k (k, a) (by rw [hr]; simp)
  rw [hrun]
  obtain ⟨rest, hr⟩ := hfirst
  have hl : lookup (call m body (run m body h) k).2.cache k = some a := by
    rw [hr]; simp [lookup]
  generalize (call m body (run m body h) k).2 = s at hl hlt ⊢
  have hc : call m body { s with heap := s.heap.set a w } k =
      (⟨.ok a, false⟩, { s with heap := s.heap.set a w, cache := (k, a) :: s.cache.filter (fun e => decide (e.1 ≠ k)) }) := by
    unfold call
    simp only [hl]
  rw [hc]
  simp only [value]
  rw [List.getElem?_set_self hlt]

/-- The two-entry CKM cache: after `(1, 2)`, `(3)` with `maxsize=2` the first key is evicted; non-vacuity of the
hypotheses of the theorems above. -/
theorem C153_nonvacuous :
    let body : ℕ → Except PyErr ℕ := fun k => if k = 9 then .error .valueError else .ok (10 * k)
    (call (some 2) body (run (some 2) body [.call 1, .call 2]) 1).1.ran = false ∧
    (call (some 2) body (run (some 2) body [.call 1, .call 2, .call 3]) 1).1.ran = true ∧
    (call (some 2) body (run (some 2) body [.call 1, .call 2, .call 1, .call 3]) 1).1.ran = false ∧
    (call (some 2) body (run (some 2) body [.call 1, .call 9, .call 2, .call 9]) 1).1.ran = false ∧
    value (call (some 2) body (run (some 2) body [.call 1, .call 2, .write 1 7]) 1) = .ok (some 10) ∧
    value (call (some 2) body (run (some 2) body [.call 1, .call 2, .write 1 7]) 2) = .ok (some 7) ∧
    NotModified (some 2) body [.call 1, .call 2, .write 1 7] 1 := by
  refine ⟨by decide, by decide, by decide, by decide, by rfl, by rfl, ?_⟩
  intro h₁ h₂ h₃ a v e
  rcases h₁ with _ | ⟨x, h₁⟩
  · simp only [List.nil_append, List.cons.injEq] at e
    obtain ⟨-, e⟩ := e
    rcases h₂ with _ | ⟨y, h₂⟩
    · simp at e
    · rcases h₂ with _ | ⟨z, h₂⟩
      · simp at e
        obtain ⟨-, ⟨rfl, -⟩, -⟩ := e
        decide
      · rcases h₂ with _ | ⟨u, h₂⟩ <;> simp at e
  · rcases h₁ with _ | ⟨y, h₁⟩
    · simp at e
    · rcases h₁ with _ | ⟨z, h₁⟩
      · simp at e
      · rcases h₁ with _ | ⟨u, h₁⟩ <;> simp at e

end Verif.Memo
