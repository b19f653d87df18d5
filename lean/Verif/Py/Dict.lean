import Verif.Py.Basic
/-!
# Python's insertion-ordered dictionary

`dict` and `collections.OrderedDict` as association lists.  `set` on an existing key keeps the
position of the key, on a new key appends it; `erase` models `del d[k]` / `d.pop(k, None)`.
All facts about dictionaries used elsewhere are proved here.
-/
namespace Verif.Py

/-- An insertion-ordered dictionary: list of (key, value) pairs, oldest key first.
Python library semantics used by the model. -/
abbrev Dict (K : Type _) (V : Type _) := List (K × V)

namespace Dict

variable {K : Type _} {V : Type _} {W : Type _} [DecidableEq K]

/-- `d.get(k)` / `d[k]` (with `none` for `KeyError`). Python library semantics used by the model. -/
def get? : Dict K V → K → Option V
  | [], _ => none
  | (k', v) :: d, k => if k' = k then some v else get? d k

/-- `d[k]` with `KeyError`. Python library semantics used by the model. -/
def getItem (d : Dict K V) (k : K) : Except PyErr V :=
  match get? d k with
  | some v => .ok v
  | none => .error .keyError

/-- `d[k] = v`: overwrite in place, or append. Python library semantics used by the model. -/
def set : Dict K V → K → V → Dict K V
  | [], k, v => [(k, v)]
  | (k', v') :: d, k, v => if k' = k then (k', v) :: d else (k', v') :: set d k v

/-- `d.pop(k, None)` / `del d[k]`. Python library semantics used by the model. -/
def erase (d : Dict K V) (k : K) : Dict K V := d.filter (fun e => decide (e.1 ≠ k))

/-- `list(d.keys())`. Python library semantics used by the model. -/
def keys (d : Dict K V) : List K := d.map Prod.fst

/-- `k in d`. Python library semantics used by the model. -/
def has (d : Dict K V) (k : K) : Bool := (get? d k).isSome

/-- `OrderedDict(pairs)`: successive assignment. Python library semantics used by the model. -/
def ofPairs (l : List (K × V)) : Dict K V := l.foldl (fun d e => set d e.1 e.2) []

/-- No key occurs twice (true of every real dictionary). Python library semantics used by the model. -/
def WF (d : Dict K V) : Prop := (keys d).Nodup

omit [DecidableEq K] in
@[simp] theorem keys_nil : keys ([] : Dict K V) = [] := rfl
omit [DecidableEq K] in
@[simp] theorem keys_cons (e : K × V) (d : Dict K V) : keys (e :: d) = e.1 :: keys d := rfl
omit [DecidableEq K] in
theorem wf_nil : WF ([] : Dict K V) := List.nodup_nil

@[simp] theorem get?_nil (k : K) : get? ([] : Dict K V) k = none := rfl
theorem get?_cons (k' : K) (v : V) (d : Dict K V) (k : K) :
    get? ((k', v) :: d) k = if k' = k then some v else get? d k := rfl

theorem get?_set (d : Dict K V) (k k' : K) (v : V) :
    get? (set d k v) k' = if k = k' then some v else get? d k' := by
  induction d with
  | nil => simp [set, get?]
  | cons e d ih =>
    obtain ⟨a, b⟩ := e
    simp only [set]
    by_cases h : a = k
    · subst h; simp only [if_true, get?_cons]; by_cases h' : a = k' <;> simp [h']
    · simp only [h, if_false, get?_cons, ih]
      by_cases h' : a = k'
      · subst h'; simp [Ne.symm h]
      · simp [h']

@[simp] theorem get?_set_self (d : Dict K V) (k : K) (v : V) : get? (set d k v) k = some v := by
  simp [get?_set]

theorem get?_set_ne (d : Dict K V) {k k' : K} (v : V) (h : k ≠ k') :
    get? (set d k v) k' = get? d k' := by simp [get?_set, h]

theorem get?_erase (d : Dict K V) (k k' : K) :
    get? (erase d k) k' = if k = k' then none else get? d k' := by
  induction d with
  | nil => simp [erase]
  | cons e d ih =>
    obtain ⟨a, b⟩ := e
    simp only [erase] at ih
    by_cases h : a = k
    · subst h
      simp only [erase, List.filter_cons, ne_eq, not_true_eq_false, decide_false, Bool.false_eq_true,
        if_false, get?_cons]
      rw [ih]; by_cases h' : a = k' <;> simp [h']
    · simp only [erase, List.filter_cons, ne_eq, h, not_false_eq_true, decide_true, if_true, get?_cons]
      rw [ih]
      by_cases h' : a = k'
      · subst h'; simp [Ne.symm h]
      · simp [h']

theorem get?_eq_none_iff (d : Dict K V) (k : K) : get? d k = none ↔ k ∉ keys d := by
  induction d with
  | nil => simp
  | cons e d ih =>
    obtain ⟨a, b⟩ := e
    simp only [get?_cons, keys_cons, List.mem_cons, not_or]
    by_cases h : a = k
    · simp [h]
    · simp [h, ih, Ne.symm h]

theorem get?_isSome_iff (d : Dict K V) (k : K) : (get? d k).isSome = true ↔ k ∈ keys d := by
  rw [← Decidable.not_iff_not, ← get?_eq_none_iff]
  cases get? d k <;> simp

theorem has_iff (d : Dict K V) (k : K) : has d k = true ↔ k ∈ keys d := get?_isSome_iff d k

theorem mem_of_get? {d : Dict K V} {k : K} {v : V} (h : get? d k = some v) : (k, v) ∈ d := by
  induction d with
  | nil => simp at h
  | cons e d ih =>
    obtain ⟨a, b⟩ := e
    rw [get?_cons] at h
    split at h
    · rename_i hk; subst hk; simp at h; simp [h]
    · exact List.mem_cons_of_mem _ (ih h)

theorem get?_of_mem {d : Dict K V} (wf : WF d) {k : K} {v : V} (h : (k, v) ∈ d) :
    get? d k = some v := by
  induction d with
  | nil => simp at h
  | cons e d ih =>
    obtain ⟨a, b⟩ := e
    rw [get?_cons]
    simp only [WF, keys_cons, List.nodup_cons] at wf
    rcases List.mem_cons.1 h with h | h
    · cases h; simp
    · have : a ≠ k := by
        rintro rfl; exact wf.1 (List.mem_map.2 ⟨_, h, rfl⟩)
      simp [this, ih wf.2 h]

theorem get?_eq_some_iff {d : Dict K V} (wf : WF d) {k : K} {v : V} :
    get? d k = some v ↔ (k, v) ∈ d := ⟨mem_of_get?, get?_of_mem wf⟩

theorem keys_set (d : Dict K V) (k : K) (v : V) :
    keys (set d k v) = if k ∈ keys d then keys d else keys d ++ [k] := by
  induction d with
  | nil => simp [set]
  | cons e d ih =>
    obtain ⟨a, b⟩ := e
    simp only [set]
    by_cases h : a = k
    · simp [h]
    · simp only [h, if_false, keys_cons, ih, List.mem_cons, Ne.symm h, false_or]
      split <;> simp

theorem mem_keys_set (d : Dict K V) (k k' : K) (v : V) :
    k' ∈ keys (set d k v) ↔ k' = k ∨ k' ∈ keys d := by
  rw [keys_set]; split
  · constructor
    · exact Or.inr
    · rintro (rfl | h) <;> assumption
  · simp [or_comm]

omit [DecidableEq K] in
theorem keys_filter_fst (d : Dict K V) (p : K → Bool) :
    keys (List.filter (fun e => p e.1) d) = List.filter p (keys d) := by
  induction d with
  | nil => simp
  | cons e d ih =>
    simp only [List.filter_cons, keys_cons]
    by_cases h : p e.1 <;> simp [h, ih]

theorem keys_erase (d : Dict K V) (k : K) :
    keys (erase d k) = (keys d).filter (fun x => decide (x ≠ k)) :=
  keys_filter_fst d (fun x => decide (x ≠ k))

theorem wf_set {d : Dict K V} (wf : WF d) (k : K) (v : V) : WF (set d k v) := by
  unfold WF; rw [keys_set]; split
  · exact wf
  · rename_i h
    exact List.nodup_append.2 ⟨wf, by simp, by
      intro a ha b hb; simp at hb; subst hb; rintro rfl; exact h ha⟩

theorem wf_erase {d : Dict K V} (wf : WF d) (k : K) : WF (erase d k) := by
  unfold WF; rw [keys_erase]; exact wf.sublist List.filter_sublist

theorem erase_of_not_mem {d : Dict K V} {k : K} (h : k ∉ keys d) : erase d k = d := by
  unfold erase
  rw [List.filter_eq_self]
  intro e he
  simp only [decide_eq_true_eq]
  rintro rfl
  exact h (List.mem_map.2 ⟨e, he, rfl⟩)

theorem set_of_not_mem {d : Dict K V} {k : K} {v : V} (h : k ∉ keys d) : set d k v = d ++ [(k, v)] := by
  induction d with
  | nil => rfl
  | cons e d ih =>
    obtain ⟨a, b⟩ := e
    simp only [keys_cons, List.mem_cons, not_or] at h
    simp [set, Ne.symm h.1, ih h.2]

theorem get?_append (d d' : Dict K V) (k : K) :
    get? (d ++ d') k = (get? d k).or (get? d' k) := by
  induction d with
  | nil => simp
  | cons e d ih =>
    obtain ⟨a, b⟩ := e
    simp only [List.cons_append, get?_cons, ih]
    split <;> simp

theorem foldl_set_get? (l : List (K × V)) (d : Dict K V) (k : K) :
    get? (l.foldl (fun d e => set d e.1 e.2) d) k = (get? l.reverse k).or (get? d k) := by
  induction l generalizing d with
  | nil => simp
  | cons e l ih =>
    obtain ⟨a, b⟩ := e
    simp only [List.foldl_cons, List.reverse_cons, ih, get?_append, get?_set, get?_cons, get?_nil]
    cases get? l.reverse k <;> simp
    split <;> simp

/-- `OrderedDict(pairs)[k]` is the value of the last pair with key `k`. -/
theorem get?_ofPairs (l : List (K × V)) (k : K) : get? (ofPairs l) k = get? l.reverse k := by
  simp [ofPairs, foldl_set_get?]

theorem wf_foldl_set (l : List (K × V)) (d : Dict K V) (h : WF d) :
    WF (l.foldl (fun d e => set d e.1 e.2) d) := by
  induction l generalizing d with
  | nil => exact h
  | cons e l ih => exact ih _ (wf_set h _ _)

theorem wf_ofPairs (l : List (K × V)) : WF (ofPairs l) := wf_foldl_set l [] wf_nil

theorem ofPairs_of_nodup (l : List (K × V)) (h : (l.map Prod.fst).Nodup) : ofPairs l = l := by
  suffices H : ∀ (l d : List (K × V)), ((d ++ l).map Prod.fst).Nodup →
      l.foldl (fun d e => set d e.1 e.2) d = d ++ l by
    have := H l [] (by simpa using h)
    rw [List.nil_append] at this; exact this
  intro l
  induction l with
  | nil => intro d _; simp
  | cons e l ih =>
    intro d hd
    have hk : e.1 ∉ keys d := by
      intro hm
      simp only [List.map_append, List.map_cons] at hd
      rw [List.nodup_append] at hd
      exact hd.2.2 _ hm e.1 (by simp) rfl
    rw [List.foldl_cons, set_of_not_mem hk, ih]
    · simp
    · simpa using hd

end Dict
end Verif.Py
