import Verif.Constraints.Spec
import Mathlib.Data.List.Induction
import Mathlib.Data.List.Nodup
import Mathlib.Tactic.Conv

/-! # Helper lemmas for the `Constraints` theorems -/
set_option linter.unusedSectionVars false
namespace Verif.Constraints
open Verif.Py

variable {P R V L : Type} [DecidableEq P] [DecidableEq R]

/-! ## one `add_constraint` call -/

theorem addOne_eq (c : R) (d : Dict P (Nat × R)) (e : P × Nat) :
    addOne c d e = d.erase e.1 ++ [(e.1, (e.2, c))] := by
  unfold addOne
  have h : (if d.has e.1 then d.erase e.1 else d) = d.erase e.1 := by
    split
    · rfl
    · rename_i h
      rw [Dict.erase_of_not_mem]
      rw [← Dict.has_iff]; exact h
  rw [h, Dict.set_of_not_mem]
  rw [← Dict.get?_eq_none_iff, Dict.get?_erase]; simp

theorem get?_addOne (c : R) (d : Dict P (Nat × R)) (e : P × Nat) (p : P) :
    (addOne c d e).get? p = if e.1 = p then some (e.2, c) else d.get? p := by
  rw [addOne_eq, Dict.get?_append, Dict.get?_erase, Dict.get?_cons, Dict.get?_nil]
  by_cases h : e.1 = p <;> simp [h]

theorem get?_foldl_addOne (c : R) (l : List (P × Nat)) (d : Dict P (Nat × R)) (p : P) :
    (l.foldl (addOne c) d).get? p =
      match Dict.get? l.reverse p with
      | some n => some (n, c)
      | none => d.get? p := by
  induction l generalizing d with
  | nil => simp
  | cons e l ih =>
    rw [List.foldl_cons, ih, List.reverse_cons, Dict.get?_append, get?_addOne]
    obtain ⟨q, n⟩ := e
    rw [Dict.get?_cons, Dict.get?_nil]
    cases Dict.get? l.reverse p <;> simp
    by_cases h : q = p <;> simp [h]

/-- `i` is the last position of `p` in `ps`. (Specification.) -/
def LastAt (ps : List P) (p : P) (i : Nat) : Prop :=
  ps[i]? = some p ∧ ∀ j, i < j → ps[j]? ≠ some p

/-- Computable form of `LastAt`. (Specification.) -/
def lastIdx (ps : List P) (p : P) : Option Nat := Dict.get? ps.zipIdx.reverse p

theorem lastIdx_append_singleton (ps : List P) (q p : P) :
    lastIdx (ps ++ [q]) p = if q = p then some ps.length else lastIdx ps p := by
  unfold lastIdx
  rw [List.zipIdx_append, List.reverse_append]
  simp [Dict.get?_cons]

theorem lastIdx_eq_some_iff (ps : List P) (p : P) (i : Nat) :
    lastIdx ps p = some i ↔ LastAt ps p i := by
  induction ps using List.reverseRecOn with
  | nil => simp [lastIdx, LastAt]
  | append_singleton ps q ih =>
    rw [lastIdx_append_singleton]
    split
    · rename_i h; subst h
      constructor
      · intro h; cases h
        refine ⟨by simp, fun j hj => ?_⟩
        rw [List.getElem?_eq_none (by simp; omega)]; simp
      · rintro ⟨h1, h2⟩
        have hlt : i < (ps ++ [q]).length := by
          rcases Nat.lt_or_ge i (ps ++ [q]).length with h | h
          · exact h
          · rw [List.getElem?_eq_none h] at h1; simp at h1
        simp at hlt
        have := h2 ps.length
        simp at this
        simp; omega
    · rename_i h
      rw [ih]
      unfold LastAt
      have key : ∀ j : Nat, (ps ++ [q])[j]? = some p ↔ ps[j]? = some p := by
        intro j
        rcases Nat.lt_trichotomy j ps.length with hj | hj | hj
        · rw [List.getElem?_append_left hj]
        · subst hj; simp [h]
        · rw [List.getElem?_eq_none (by simp; omega), List.getElem?_eq_none (by omega)]
      simp only [ne_eq, key]

theorem lastIdx_isSome_iff (ps : List P) (p : P) : (lastIdx ps p).isSome ↔ p ∈ ps := by
  unfold lastIdx
  rw [Dict.get?_isSome_iff, Dict.keys, List.map_reverse, List.mem_reverse, List.zipIdx_map_fst]

theorem lastIdx_eq_none_iff (ps : List P) (p : P) : lastIdx ps p = none ↔ p ∉ ps := by
  rw [← lastIdx_isSome_iff]; cases lastIdx ps p <;> simp

theorem lastIdx_of_nodup {ps : List P} (hn : ps.Nodup) {p : P} (hp : p ∈ ps) :
    lastIdx ps p = some (ps.idxOf p) := by
  rw [lastIdx_eq_some_iff]
  have hlt := List.idxOf_lt_length_of_mem hp
  refine ⟨by rw [List.getElem?_eq_getElem hlt, List.getElem_idxOf], fun j hj h => ?_⟩
  have hjl : j < ps.length := by
    rcases Nat.lt_or_ge j ps.length with h' | h'
    · exact h'
    · rw [List.getElem?_eq_none h'] at h; simp at h
  rw [List.getElem?_eq_getElem hjl] at h
  simp at h
  have : ps[j] = ps[ps.idxOf p] := by rw [h, List.getElem_idxOf]
  have := hn.getElem_inj_iff.1 this
  omega

theorem get?_addConstraint (s : CState P R) (ps : List P) (c : R) (p : P) :
    (addConstraint s ps c).parameters.get? p =
      match lastIdx ps p with
      | some n => some (n, c)
      | none => s.parameters.get? p := get?_foldl_addOne c _ _ p

/-! ## histories -/

theorem run_append_singleton (h : List (Op P R)) (op : Op P R) :
    run (h ++ [op]) = step (run h) op := by simp [run]

theorem run_constraints (h : List (Op P R)) : (run h).constraints = adds h := by
  suffices H : ∀ (h : List (Op P R)) (s : CState P R),
      (h.foldl step s).constraints = s.constraints ++ adds h by
    have := H h CState.init
    simpa [CState.init, run] using this
  intro h
  induction h with
  | nil => intro s; simp [adds]
  | cons op h ih =>
    intro s
    rw [List.foldl_cons, ih]
    cases op with
    | add ps c => simp [step, addConstraint, adds]
    | remove p => simp [step, removeConstraint, adds]

theorem inForce_append_singleton (h : List (Op P R)) (op : Op P R) (p : P) (i : Nat) (c : R) :
    InForce (h ++ [op]) p i c ↔
      (∃ ps, op = .add ps c ∧ LastAt ps p i) ∨ (¬ op.names p ∧ InForce h p i c) := by
  constructor
  · rintro ⟨h₁, ps, h₂, he, h1, h2, h3⟩
    rcases List.eq_nil_or_concat h₂ with rfl | ⟨h₂', op', rfl⟩
    · have := List.append_inj' he rfl
      simp at this
      exact Or.inl ⟨ps, this.2, h1, h2⟩
    · right
      have he' : h ++ [op] = (h₁ ++ Op.add ps c :: h₂') ++ [op'] := by simpa using he
      have := List.append_inj' he' rfl
      obtain ⟨ha, hb⟩ := this
      simp at hb; subst hb
      refine ⟨h3 op (by simp), h₁, ps, h₂', ha, h1, h2, fun o ho => h3 o (by simp [ho])⟩
  · rintro (⟨ps, rfl, h1, h2⟩ | ⟨hn, h₁, ps, h₂, rfl, h1, h2, h3⟩)
    · exact ⟨h, ps, [], by simp, h1, h2, by simp⟩
    · refine ⟨h₁, ps, h₂ ++ [op], by simp, h1, h2, ?_⟩
      intro o ho
      rcases List.mem_append.1 ho with ho | ho
      · exact h3 o ho
      · simp at ho; subst ho; exact hn

/-- The central refinement fact: the internal dictionary holds exactly the constraints in force. -/
theorem get?_run (h : List (Op P R)) (p : P) (i : Nat) (c : R) :
    (run h).parameters.get? p = some (i, c) ↔ InForce h p i c := by
  induction h using List.reverseRecOn generalizing i c with
  | nil =>
    simp only [run, List.foldl_nil, CState.init, Dict.get?_nil, reduceCtorEq, false_iff]
    rintro ⟨h₁, ps, h₂, he, -⟩
    simp at he
  | append_singleton h op ih =>
    rw [run_append_singleton, inForce_append_singleton]
    cases op with
    | add ps c' =>
      simp only [step, get?_addConstraint]
      cases hl : lastIdx ps p with
      | none =>
        have hm := (lastIdx_eq_none_iff ps p).1 hl
        simp only [ih]
        constructor
        · intro h'; exact Or.inr ⟨hm, h'⟩
        · rintro (⟨ps', he, h1⟩ | ⟨-, h'⟩)
          · cases he
            rw [← lastIdx_eq_some_iff, hl] at h1; simp at h1
          · exact h'
      | some n =>
        have hm : p ∈ ps := by rw [← lastIdx_isSome_iff, hl]; rfl
        have hn := (lastIdx_eq_some_iff ps p n).1 hl
        simp only [Option.some.injEq, Prod.mk.injEq]
        constructor
        · rintro ⟨rfl, rfl⟩; exact Or.inl ⟨ps, rfl, hn⟩
        · rintro (⟨ps', he, h1⟩ | ⟨h1, -⟩)
          · cases he
            rw [← lastIdx_eq_some_iff, hl] at h1
            exact ⟨by simpa using h1, rfl⟩
          · exact absurd hm h1
    | remove q =>
      simp only [step, removeConstraint, Dict.get?_erase]
      by_cases hq : q = p
      · subst hq
        simp only [if_true]
        constructor
        · intro h'; simp at h'
        · rintro (⟨ps', he, h1⟩ | ⟨h1, -⟩)
          · simp at he
          · exact absurd rfl h1
      · simp only [hq, if_false, ih]
        constructor
        · intro h'; exact Or.inr ⟨hq, h'⟩
        · rintro (⟨ps', he, h1⟩ | ⟨-, h'⟩)
          · simp at he
          · exact h'

theorem mem_keys_run (h : List (Op P R)) (p : P) :
    p ∈ (run h).parameters.keys ↔ Constrained h p := by
  rw [← Dict.get?_isSome_iff, Option.isSome_iff_exists]
  constructor
  · rintro ⟨⟨i, c⟩, hc⟩; exact ⟨i, c, (get?_run h p i c).1 hc⟩
  · rintro ⟨i, c, hc⟩; exact ⟨(i, c), (get?_run h p i c).2 hc⟩

theorem keys_foldl_addOne (c : R) (l : List (P × Nat)) (d : Dict P (Nat × R)) :
    (l.foldl (addOne c) d).keys =
      d.keys.filter (fun p => decide (p ∉ l.map Prod.fst)) ++ lastOccs (l.map Prod.fst) := by
  induction l generalizing d with
  | nil =>
    simp only [List.foldl_nil, List.map_nil, List.not_mem_nil, not_false_eq_true, decide_true,
      lastOccs, List.append_nil]
    exact (List.filter_eq_self.2 (fun _ _ => rfl)).symm
  | cons e l ih =>
    rw [List.foldl_cons, ih, addOne_eq]
    have hk : Dict.keys (d.erase e.1 ++ [(e.1, (e.2, c))]) =
        (d.keys.filter fun x => decide (x ≠ e.1)) ++ [e.1] := by
      rw [← Dict.keys_erase]; simp [Dict.keys]
    rw [hk]
    simp only [List.filter_append, List.filter_filter, List.map_cons, lastOccs]
    have h1 : (d.keys.filter fun a => decide (a ∉ l.map Prod.fst) && decide (a ≠ e.1)) =
        d.keys.filter fun a => decide (a ∉ e.1 :: l.map Prod.fst) := by
      congr 1; funext a
      simp only [List.mem_cons, not_or, Bool.decide_and]
      rw [Bool.and_comm]
    rw [h1]
    by_cases hm : e.1 ∈ l.map Prod.fst
    · simp [hm]
    · simp [hm]

theorem wf_foldl_addOne (c : R) (l : List (P × Nat)) (d : Dict P (Nat × R)) (h : Dict.WF d) :
    Dict.WF (l.foldl (addOne c) d) := by
  induction l generalizing d with
  | nil => exact h
  | cons e l ih =>
    apply ih
    unfold addOne
    apply Dict.wf_set
    split
    · exact Dict.wf_erase h _
    · exact h

theorem wf_run (h : List (Op P R)) : Dict.WF (run h).parameters := by
  induction h using List.reverseRecOn with
  | nil => exact Dict.wf_nil
  | append_singleton h op ih =>
    rw [run_append_singleton]
    cases op with
    | add ps c => exact wf_foldl_addOne c _ _ ih
    | remove p => exact Dict.wf_erase ih p

theorem mem_lastOccs (l : List P) (p : P) : p ∈ lastOccs l ↔ p ∈ l := by
  induction l with
  | nil => simp [lastOccs]
  | cons q l ih =>
    simp only [lastOccs]
    split
    · rename_i hq
      rw [ih, List.mem_cons]
      constructor
      · exact Or.inr
      · rintro (rfl | h) <;> assumption
    · simp [ih]

theorem lastOccs_append (l l' : List P) :
    lastOccs (l ++ l') = (lastOccs l).filter (fun p => decide (p ∉ l')) ++ lastOccs l' := by
  induction l with
  | nil => simp [lastOccs]
  | cons q l ih =>
    simp only [List.cons_append, lastOccs, List.mem_append]
    by_cases h1 : q ∈ l
    · simp [h1, ih]
    · by_cases h2 : q ∈ l'
      · simp [h1, h2, ih]
      · simp [h1, h2, ih]

theorem named_append (h h' : List (Op P R)) : named (h ++ h') = named h ++ named h' := by
  induction h with
  | nil => rfl
  | cons op h ih => cases op <;> simp [named, ih]

theorem keys_run (h : List (Op P R)) [DecidablePred (Constrained h)] :
    (run h).parameters.keys = (lastOccs (named h)).filter (fun p => decide (Constrained h p)) := by
  -- reformulate with membership in the dictionary, which is decidable
  suffices H : ∀ h : List (Op P R), (run h).parameters.keys =
      (lastOccs (named h)).filter (fun p => decide (p ∈ (run h).parameters.keys)) by
    have hh := H h
    rw [hh]
    apply List.filter_congr
    intro p _
    have := mem_keys_run h p
    by_cases hc : Constrained h p
    · simp [hc, this.2 hc]
    · have hn : p ∉ (run h).parameters.keys := fun hk => hc (this.1 hk)
      simp [hc, hn]
  intro h
  induction h using List.reverseRecOn with
  | nil => simp [run, CState.init, named, lastOccs]
  | append_singleton h op ih =>
    rw [run_append_singleton, named_append, lastOccs_append]
    cases op with
    | add ps c =>
      simp only [step, addConstraint, keys_foldl_addOne, List.zipIdx_map_fst, named, List.append_nil,
        List.filter_append, List.filter_filter]
      congr 1
      · conv_lhs => rw [ih]
        rw [List.filter_filter]
        apply List.filter_congr
        intro p _
        simp only [List.mem_append, List.mem_filter, mem_lastOccs]
        by_cases h1 : p ∈ ps
        · simp [h1]
        · simp [h1]
      · symm; rw [List.filter_eq_self]
        intro p hp
        simp [hp]
    | remove q =>
      simp only [step, removeConstraint, Dict.keys_erase, named, List.not_mem_nil, not_false_eq_true,
        decide_true, lastOccs, List.append_nil]
      rw [show (lastOccs (named h)).filter (fun _ => true) = lastOccs (named h) by simp]
      conv_lhs => rw [ih]
      rw [List.filter_filter]
      apply List.filter_congr
      intro p _
      simp only [List.mem_filter]
      rw [Bool.decide_and, Bool.and_comm]
      simp

/-! ## consequences for `Proper` histories -/

theorem adds_append (h h' : List (Op P R)) : adds (h ++ h') = adds h ++ adds h' := by
  induction h with
  | nil => rfl
  | cons op h ih => cases op <;> simp [adds, ih]

/-- A constraint in force comes from an `add_constraint` call of the history. -/
theorem InForce.mem_adds {h : List (Op P R)} {p : P} {i : Nat} {c : R} (hf : InForce h p i c) :
    ∃ ps, (c, ps) ∈ adds h ∧ LastAt ps p i := by
  obtain ⟨h₁, ps, h₂, rfl, h1, h2, -⟩ := hf
  exact ⟨ps, by simp [adds_append, adds], h1, h2⟩

theorem LastAt.mem {ps : List P} {p : P} {i : Nat} (h : LastAt ps p i) : p ∈ ps :=
  List.mem_of_getElem? h.1

theorem eq_of_fresh {h : List (Op P R)} (hp : Proper h) {c : R} {ps ps' : List P}
    (h1 : (c, ps) ∈ adds h) (h2 : (c, ps') ∈ adds h) : ps = ps' := by
  have wf : Dict.WF (adds h) := hp.fresh
  have a := Dict.get?_of_mem wf h1
  have b := Dict.get?_of_mem wf h2
  rw [a] at b; simpa using b

theorem otherPositions_eq (ps live : List P) :
    (ps.zipIdx.filter fun e => decide (e.1 ∉ live)).map Prod.snd = otherPositions ps live := by
  unfold otherPositions
  induction ps using List.reverseRecOn with
  | nil => simp
  | append_singleton ps q ih =>
    rw [List.zipIdx_append, List.filter_append, List.map_append, ih, List.length_append,
      List.length_singleton, List.range_succ, List.filter_append]
    congr 1
    · apply List.filter_congr
      intro i hi
      rw [List.mem_range] at hi
      rw [List.getElem?_append_left hi]
    · by_cases hq : q ∈ live <;> simp [hq]

end Verif.Constraints
