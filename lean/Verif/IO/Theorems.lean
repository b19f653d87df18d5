import Verif.IO.Model
import Verif.Constraints.Theorems2

/-!
# Property theorems about `flavio.io.instanceio` (C57, C58)
-/
set_option linter.unusedSectionVars false
set_option linter.unusedSimpArgs false
set_option linter.unusedVariables false
namespace Verif.IO
open Verif.Py Verif.Constraints

/-! ## C57 -/

section
variable {A : Type} [DecidableEq A]

/-- Specification: `r` lists the elements of `l` in the order of their first occurrence. -/
inductive FirstOccurrences : List A → List A → Prop where
  | nil : FirstOccurrences [] []
  | new {l r : List A} {a : A} : FirstOccurrences l r → a ∉ l → FirstOccurrences (l ++ [a]) (r ++ [a])
  | old {l r : List A} {a : A} : FirstOccurrences l r → a ∈ l → FirstOccurrences (l ++ [a]) r

theorem dedup_snoc (l : List A) (a : A) :
    listDeduplicate (l ++ [a]) = if a ∈ listDeduplicate l then listDeduplicate l
      else listDeduplicate l ++ [a] := by
  unfold listDeduplicate
  rw [List.foldl_append]
  simp only [List.foldl_cons, List.foldl_nil]
  generalize l.foldl (fun (d : Dict A Unit) a => d.set a ()) [] = d
  split
  · rename_i h
    rw [Dict.keys_set, if_pos h]
  · rename_i h
    rw [Dict.set_of_not_mem h]
    simp [Dict.keys]

theorem mem_listDeduplicate (l : List A) (a : A) : a ∈ listDeduplicate l ↔ a ∈ l := by
  induction l using List.reverseRecOn with
  | nil => simp [listDeduplicate, Dict.keys]
  | append_singleton l b ih =>
    rw [dedup_snoc]
    split
    · rename_i h
      rw [List.mem_append, List.mem_singleton, ih]
      constructor
      · exact Or.inl
      · rintro (h' | rfl)
        · exact h'
        · exact ih.1 h
    · simp [ih]

/-- **C57.** `list_deduplicate` gives the elements in the order of first occurrence. -/
theorem C57_first_occurrences (l : List A) : FirstOccurrences l (listDeduplicate l) := by
  induction l using List.reverseRecOn with
  | nil => exact .nil
  | append_singleton l b ih =>
    rw [dedup_snoc]
    split
    · rename_i h; exact .old ih ((mem_listDeduplicate l b).1 h)
    · rename_i h; exact .new ih (fun h' => h ((mem_listDeduplicate l b).2 h'))

/-- **C57.** The result has the same elements, no repetition, and is a subsequence of the list. -/
theorem C57_nodup (l : List A) : (listDeduplicate l).Nodup ∧ (∀ a, a ∈ listDeduplicate l ↔ a ∈ l) ∧
    (listDeduplicate l).Sublist l := by
  refine ⟨?_, mem_listDeduplicate l, ?_⟩
  · induction l using List.reverseRecOn with
    | nil => exact List.nodup_nil
    | append_singleton l b ih =>
      rw [dedup_snoc]
      split
      · exact ih
      · rename_i h
        rw [List.nodup_append]
        refine ⟨ih, by simp, ?_⟩
        intro x hx y hy
        rw [List.mem_singleton] at hy
        rintro rfl
        exact h (hy ▸ hx)
  · induction l using List.reverseRecOn with
    | nil => exact List.Sublist.refl _
    | append_singleton l b ih =>
      rw [dedup_snoc]
      split
      · exact ih.trans (List.sublist_append_left _ _)
      · exact ih.append (List.Sublist.refl _)

/-- **C57.** A list without repetition is unchanged. -/
theorem C57_identity_on_nodup (l : List A) (h : l.Nodup) : listDeduplicate l = l := by
  induction l using List.reverseRecOn with
  | nil => rfl
  | append_singleton l b ih =>
    rw [List.nodup_append] at h
    rw [dedup_snoc, ih h.1, if_neg]
    intro hb
    exact h.2.2 b hb b (by simp) rfl

/-- **C57.** `list_deduplicate` is idempotent. -/
theorem C57_idempotent (l : List A) : listDeduplicate (listDeduplicate l) = listDeduplicate l :=
  C57_identity_on_nodup _ (C57_nodup l).1

example : listDeduplicate ["b", "a", "b", "c", "a"] = ["b", "a", "c"] := by decide

end

/-! ## C58 -/

variable {P R Y D : Type} [DecidableEq P] [DecidableEq R] [DecidableEq Y]

/-- The call adds a constraint whose dumped form (parameter list and values) is also the dumped form
of some `add_constraint` call of the default history. (Specification.) -/
def LooksDefault (dump : R → Y) (hd : List (Op P R)) : Op P R → Prop
  | .add ps c => ∃ e ∈ adds hd, e.2 = ps ∧ dump e.1 = dump c
  | .remove _ => False

theorem any_sameEntry (dump : R → Y) (hd : List (Op P R)) (ps : List P) (c : R) :
    (getYamlList dump (run hd)).any (sameEntry ⟨ps, dump c⟩) = true ↔
      LooksDefault dump hd (.add ps c) := by
  unfold getYamlList LooksDefault
  rw [run_constraints]
  simp only [List.any_map, List.any_eq_true, Function.comp_apply, sameEntry, Bool.and_eq_true,
    decide_eq_true_eq]
  constructor
  · rintro ⟨e, he, h1, h2⟩; exact ⟨e, he, h1.symm, h2.symm⟩
  · rintro ⟨e, he, h1, h2⟩; exact ⟨e, he, h1.symm, h2.symm⟩

theorem adds_rename (ρ : R → R) (h : List (Op P R)) :
    adds (h.map (Op.rename ρ)) = (adds h).map fun e => (ρ e.1, e.2) := by
  induction h with
  | nil => rfl
  | cons op h ih => cases op <;> simp [adds, Op.rename, ih]

open Classical in
/-- The `add_constraint` calls of the user that do not look like default constraints. (Specification.) -/
noncomputable def kept (dump : R → Y) (hd hu : List (Op P R)) : List (R × List P) :=
  (adds hu).filter fun e => decide (¬ LooksDefault dump hd (.add e.2 e.1))

open Classical in
theorem getParDiff_eq (dump : R → Y) (ρ : R → R) (hρ : ∀ c, dump (ρ c) = dump c)
    (hd hu : List (Op P R)) :
    getParDiff dump (run hd) (run (hd.map (Op.rename ρ) ++ hu)) =
      (kept dump hd hu).map fun e => ⟨e.2, dump e.1⟩ := by
  unfold getParDiff kept
  have h1 : getYamlList dump (run (hd.map (Op.rename ρ) ++ hu)) =
      (adds hd).map (fun e => (⟨e.2, dump e.1⟩ : YEntry P Y)) ++
        (adds hu).map (fun e => ⟨e.2, dump e.1⟩) := by
    unfold getYamlList
    rw [run_constraints, adds_append, adds_rename, List.map_append, List.map_map]
    congr 1
    apply List.map_congr_left
    intro e _
    simp [hρ]
  rw [h1, List.filter_append]
  have h2 : ((adds hd).map (fun e => (⟨e.2, dump e.1⟩ : YEntry P Y))).filter
      (fun c => !(getYamlList dump (run hd)).any (sameEntry c)) = [] := by
    rw [List.filter_eq_nil_iff]
    intro c hc
    obtain ⟨e, he, rfl⟩ := List.mem_map.1 hc
    simp only [Bool.not_eq_true', Bool.not_eq_false]
    rw [any_sameEntry]
    exact ⟨e, he, rfl, rfl⟩
  rw [h2, List.nil_append, List.filter_map]
  congr 1
  apply List.filter_congr
  intro e _
  simp only [Function.comp_apply]
  rw [Bool.eq_iff_iff, Bool.not_eq_true', decide_eq_true_eq, ← any_sameEntry, Bool.not_eq_true]

/-- What is in force for `p` according to content: position and distribution content. (Specification.) -/
def content (val : R → D) (s : CState P R) (p : P) : Option (Nat × D) :=
  (s.parameters.get? p).map fun e => (e.1, val e.2)

theorem fromYamlOnto_spec (enc : D → Y) (val : R → D) (load : Nat → Y → Except PyErr R)
    (hload : ∀ n d, ∃ r, load n (enc d) = .ok r ∧ val r = d) (l : List (R × List P)) (s : CState P R) :
    ∃ s', fromYamlOnto load s (l.map fun e => ⟨e.2, enc (val e.1)⟩) = .ok s' ∧
      ∀ p, content val s' p =
        (l.reverse.findSome? fun e => (lastIdx e.2 p).map fun i => (i, val e.1)).or
          (content val s p) := by
  unfold fromYamlOnto
  suffices H : ∀ (l : List (R × List P)) (k : Nat) (s : CState P R),
      ∃ s', ((l.map fun e => (⟨e.2, enc (val e.1)⟩ : YEntry P Y)).zipIdx k).foldlM
          (loadEntry load) s = .ok s' ∧
        ∀ p, content val s' p =
          (l.reverse.findSome? fun e => (lastIdx e.2 p).map fun i => (i, val e.1)).or
            (content val s p) from H l 0 s
  intro l
  induction l with
  | nil => intro k s; exact ⟨s, rfl, fun p => by simp⟩
  | cons e l ih =>
    intro k s
    obtain ⟨c, ps⟩ := e
    obtain ⟨r, hr, hv⟩ := hload k (val c)
    obtain ⟨s', h1, h2⟩ := ih (k + 1) (addConstraint s ps r)
    refine ⟨s', ?_, fun p => ?_⟩
    · have hst : loadEntry load s (⟨ps, enc (val c)⟩, k) = .ok (addConstraint s ps r) := by
        unfold loadEntry
        rw [hr]; rfl
      rw [List.map_cons, List.zipIdx_cons, List.foldlM_cons, hst, ok_bind_eq]
      exact h1
    · rw [h2 p, List.reverse_cons, List.findSome?_append]
      unfold content
      rw [get?_addConstraint]
      cases List.findSome? (fun e => Option.map (fun i => (i, val e.1)) (lastIdx e.2 p)) l.reverse with
      | some x => simp
      | none =>
        simp only [Option.none_or, List.findSome?_cons, List.findSome?_nil]
        cases lastIdx ps p <;> simp [hv]

theorem content_copy (val : R → D) (ρ : R → R) (hρ : ∀ c, val (ρ c) = val c) (s : CState P R) (p : P) :
    content val (copyState ρ s) p = content val s p := by
  unfold content
  rw [get?_copy]
  cases s.parameters.get? p <;> simp [hρ]

/-- Content in force after further calls: the last `add` naming `p`, provided `p` is still
constrained if the calls mention it at all. -/
theorem content_run_append (val : R → D) (h hu : List (Op P R)) (p : P)
    (hc : (∃ op ∈ hu, op.names p) → Constrained (h ++ hu) p) :
    content val (run (h ++ hu)) p =
      ((adds hu).reverse.findSome? fun e => (lastIdx e.2 p).map fun i => (i, val e.1)).or
        (content val (run h) p) := by
  induction hu using List.reverseRecOn with
  | nil => simp [adds]
  | append_singleton hu op ih =>
    rw [← List.append_assoc, run_append_singleton, adds_append]
    rw [← List.append_assoc] at hc
    cases op with
    | add ps c =>
      simp only [step, content, get?_addConstraint, adds, List.reverse_append, List.reverse_cons,
        List.reverse_nil, List.nil_append, List.findSome?_append, List.findSome?_cons,
        List.findSome?_nil]
      cases hl : lastIdx ps p with
      | some n => simp
      | none =>
        simp only [Option.map_none, Option.none_or]
        apply ih
        rintro ⟨op, ho, hn⟩
        have hnp : p ∉ ps := (lastIdx_eq_none_iff ps p).1 hl
        obtain ⟨i, c', hf⟩ := hc ⟨op, by simp [ho], hn⟩
        exact ⟨i, c', ((C01_add _ ps c p).2 hnp i c').1 hf⟩
    | remove q =>
      by_cases hq : q = p
      · subst hq
        exact absurd (hc ⟨.remove q, by simp, rfl⟩) (C01_remove _ q q).1
      · simp only [adds, List.append_nil, step, removeConstraint, content, Dict.get?_erase, hq, if_false]
        apply ih
        rintro ⟨op, ho, hn⟩
        obtain ⟨i, c', hf⟩ := hc ⟨op, by simp [ho], hn⟩
        exact ⟨i, c', ((C01_remove _ q p).2 (fun e => hq e.symm) i c').1 hf⟩

theorem run_rename_content (val : R → D) (ρ : R → R) (hρ : ∀ c, val (ρ c) = val c)
    (h : List (Op P R)) (p : P) : content val (run (h.map (Op.rename ρ))) p = content val (run h) p := by
  induction h using List.reverseRecOn with
  | nil => rfl
  | append_singleton h op ih =>
    rw [List.map_append, List.map_cons, List.map_nil, run_append_singleton, run_append_singleton]
    cases op with
    | add ps c =>
      simp only [Op.rename, step, content, get?_addConstraint]
      cases lastIdx ps p with
      | some n => simp [hρ]
      | none => exact ih
    | remove q =>
      simp only [Op.rename, step, removeConstraint, content, Dict.get?_erase]
      split
      · rfl
      · exact ih

open Classical in
/-- **C58, the part that holds** (missing: removals and constraints equal to a default one, see the
witnesses below).  `hd` is the history of `default_parameters`, the dumped object is a copy of it on
which the calls `hu` were made.  Assume the distribution data survives dumping and loading.  If every
parameter that the user's calls mention is still constrained and none of the user's constraints looks
like a default constraint, then loading the dumped difference gives every parameter the same position
and distribution content. -/
theorem C58_par_diff_reload_partial (enc : D → Y) (val : R → D) (load : Nat → Y → Except PyErr R)
    (hload : ∀ n d, ∃ r, load n (enc d) = .ok r ∧ val r = d) (ρ ρ' : R → R)
    (hρ : ∀ c, val (ρ c) = val c) (hρ' : ∀ c, val (ρ' c) = val c) (hd hu : List (Op P R))
    (hc : ∀ p, (∃ op ∈ hu, op.names p) → Constrained (hd.map (Op.rename ρ) ++ hu) p)
    (hl : ∀ op ∈ hu, ¬ LooksDefault (enc ∘ val) hd op) :
    ∃ s', coerceParObj load ρ' (run hd) (getParDiff (enc ∘ val) (run hd)
        (run (hd.map (Op.rename ρ) ++ hu))) = .ok s' ∧
      ∀ p, content val s' p = content val (run (hd.map (Op.rename ρ) ++ hu)) p := by
  have hk : kept (enc ∘ val) hd hu = adds hu := by
    unfold kept
    rw [List.filter_eq_self]
    intro e he
    rw [decide_eq_true_eq]
    apply hl
    clear hl hc
    induction hu with
    | nil => simp [adds] at he
    | cons op h ih =>
      cases op with
      | add ps c =>
        simp only [adds, List.mem_cons] at he
        rcases he with rfl | he
        · simp
        · exact List.mem_cons_of_mem _ (ih he)
      | remove q => exact List.mem_cons_of_mem _ (ih he)
  rw [getParDiff_eq _ ρ (fun c => by simp [hρ]), hk]
  unfold coerceParObj
  obtain ⟨s', h1, h2⟩ := fromYamlOnto_spec enc val load hload (adds hu) (copyState ρ' (run hd))
  refine ⟨s', h1, fun p => ?_⟩
  rw [h2 p, content_copy val ρ' hρ', content_run_append val _ hu p (hc p),
    run_rename_content val ρ hρ]

/-- **C58, exact behaviour** for every user history: the reloaded object is the copy of the defaults
followed by exactly those `add_constraint` calls of the user that do not look like default ones;
removals and resets to a default value are forgotten. -/
theorem C58_exact (enc : D → Y) (val : R → D) (load : Nat → Y → Except PyErr R)
    (hload : ∀ n d, ∃ r, load n (enc d) = .ok r ∧ val r = d) (ρ ρ' : R → R)
    (hρ : ∀ c, val (ρ c) = val c) (hρ' : ∀ c, val (ρ' c) = val c) (hd hu : List (Op P R))
    (calls : List (Op P R))
    (hcalls : ∀ op, op ∈ calls → ∃ ps c, op = .add ps c)
    (hadds : adds calls = kept (enc ∘ val) hd hu) :
    ∃ s', coerceParObj load ρ' (run hd) (getParDiff (enc ∘ val) (run hd)
        (run (hd.map (Op.rename ρ) ++ hu))) = .ok s' ∧
      ∀ p, content val s' p = content val (run (hd ++ calls)) p := by
  rw [getParDiff_eq _ ρ (fun c => by simp [hρ]), ← hadds]
  unfold coerceParObj
  obtain ⟨s', h1, h2⟩ := fromYamlOnto_spec enc val load hload (adds calls) (copyState ρ' (run hd))
  refine ⟨s', h1, fun p => ?_⟩
  rw [h2 p, content_copy val ρ' hρ', content_run_append val hd calls p]
  rintro ⟨op, ho, hn⟩
  clear h1 h2 s' hadds
  induction calls using List.reverseRecOn with
  | nil => simp at ho
  | append_singleton l op' ih =>
    obtain ⟨ps, c, rfl⟩ := hcalls op' (by simp)
    rw [← List.append_assoc]
    by_cases hp : p ∈ ps
    · obtain ⟨i, -, hf⟩ := (C01_add (hd ++ l) ps c p).1 hp
      exact ⟨i, c, hf⟩
    · rcases List.mem_append.1 ho with ho | ho
      · obtain ⟨i, c', hf⟩ := ih (fun o h => hcalls o (by simp [h])) ho
        exact ⟨i, c', ((C01_add (hd ++ l) ps c p).2 hp i c').2 hf⟩
      · rw [List.mem_singleton] at ho
        subst ho
        exact absurd hn hp

/-- **C58 is false of the code (1)**: the user changes a parameter and sets it back to the default;
the reloaded object has the intermediate value. -/
theorem C58_reset_to_default_is_lost :
    let hd : List (Op String Nat) := [.add ["a"] 1]
    let par := run (hd ++ [.add ["a"] 2, .add ["a"] 1])
    content id par "a" = some (0, 1) ∧
    (coerceParObj (fun _ y => .ok y) id (run hd) (getParDiff id (run hd) par)).map
      (fun s => content id s "a") = .ok (some (0, 2)) := by
  decide

/-- **C58 is false of the code (2)**: a removed default constraint comes back. -/
theorem C58_removal_is_lost :
    let hd : List (Op String Nat) := [.add ["a"] 1]
    let par := run (hd ++ [.remove "a"])
    content id par "a" = none ∧
    (coerceParObj (fun _ y => .ok y) id (run hd) (getParDiff id (run hd) par)).map
      (fun s => content id s "a") = .ok (some (0, 1)) := by
  decide

example : let hd : List (Op String Nat) := [.add ["a", "b"] 1, .add ["c"] 2]
    let hu : List (Op String Nat) := [.add ["b"] 3, .remove "c", .add ["c"] 4]
    (∀ p, (∃ op ∈ hu, op.names p) → Constrained (hd ++ hu) p) ∧
    (∀ op ∈ hu, ¬ LooksDefault id hd op) ∧
    (getParDiff id (run hd) (run (hd ++ hu))).map (fun e => (e.params, e.values)) =
      [(["b"], 3), (["c"], 4)] := by
  refine ⟨?_, ?_, by decide⟩
  · intro p hp
    rw [← mem_keys_run]
    simp only [List.mem_cons, List.not_mem_nil, or_false, exists_eq_or_imp, exists_eq_left,
      Op.names] at hp
    rcases hp with rfl | rfl | rfl <;> decide
  · intro op hop
    simp only [List.mem_cons, List.not_mem_nil, or_false] at hop
    rcases hop with rfl | rfl | rfl <;> simp [LooksDefault, adds]

end Verif.IO
