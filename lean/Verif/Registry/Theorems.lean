import Verif.Registry.Model
import Mathlib.Data.List.Induction

/-!
# Property theorems about the named-instance registries (C13, C14)
-/
set_option linter.unusedSectionVars false
set_option linter.unusedSimpArgs false
namespace Verif.Registry
open Verif.Py

variable {C N I : Type} [DecidableEq C] [DecidableEq N]

/-! ## Specification vocabulary (histories only) -/

/-- Calls that end the life of the registration of `n` in class `c`. (Specification.) -/
def Op.affects (op : Op C N I) (c : C) (n : N) : Prop :=
  match op with
  | .create c' n' _ => c' = c ∧ n' = n
  | .del c' n' => c' = c ∧ n' = n
  | .clear c' => c' = c

/-- `i` is the most recently created, not deleted instance of class `c` with name `n`. (Specification.) -/
def Registered (h : List (Op C N I)) (c : C) (n : N) (i : I) : Prop :=
  ∃ h₁ h₂, h = h₁ ++ Op.create c n i :: h₂ ∧ ∀ op ∈ h₂, ¬ op.affects c n

/-- Some instance of `c` was created, or `clear_all` was called on `c`, at some time. (Specification.) -/
def Touched (h : List (Op C N I)) (c : C) : Prop :=
  ∃ op ∈ h, (∃ n i, op = .create c n i) ∨ op = .clear c

/-- No call was made on a proper base class of `c` that would give it a registry (in flavio: nobody
instantiated `NamedInstanceClass` itself). (Specification.) -/
def BasesUntouched (bases : C → List C) (h : List (Op C N I)) (c : C) : Prop :=
  ∀ b ∈ bases c, b ≠ c ∧ ∀ op ∈ h, op.cls ≠ b

/-! ## Helper lemmas -/

theorem run_append_singleton (bases : C → List C) (h : List (Op C N I)) (op : Op C N I) :
    run bases (h ++ [op]) = step bases (run bases h) op := by simp [run]

theorem owner_of_bases_none (w : Attrs C N I) (c : C) (bs : List C) (hb : ∀ b ∈ bs, w b = none) :
    owner w (c :: bs) = if (w c).isSome then some c else none := by
  have : owner w bs = none := by
    induction bs with
    | nil => rfl
    | cons b bs ih =>
      simp only [owner, hb b (by simp), Option.isSome_none, Bool.false_eq_true, if_false]
      exact ih fun x hx => hb x (by simp [hx])
  simp [owner, this]

/-- Under `BasesUntouched` for all classes used, the state of a class is that of a private map. (Specification.) -/
def privStep (c : C) (d : Option (Dict N I)) : Op C N I → Option (Dict N I)
  | .create c' n i => if c' = c then some ((d.getD []).set n i) else d
  | .del c' n => if c' = c then d.map (fun d => d.erase n) else d
  | .clear c' => if c' = c then some [] else d

/-- (Specification.) -/
def privRun (c : C) (h : List (Op C N I)) : Option (Dict N I) := h.foldl (privStep c) none

/-- The hypothesis of the property: every class on which calls are made has untouched bases. (Specification.) -/
def Wellused (bases : C → List C) (h : List (Op C N I)) : Prop :=
  ∀ op ∈ h, BasesUntouched bases h op.cls

theorem privRun_append_singleton (c : C) (h : List (Op C N I)) (op : Op C N I) :
    privRun c (h ++ [op]) = privStep c (privRun c h) op := by simp [privRun]

theorem privStep_of_ne (c : C) (d : Option (Dict N I)) (op : Op C N I) (hne : op.cls ≠ c) :
    privStep c d op = d := by
  cases op <;> simp only [Op.cls] at hne <;> simp [privStep, hne]

theorem privRun_none (c : C) (h : List (Op C N I)) (hc : ∀ op ∈ h, op.cls ≠ c) :
    privRun c h = none := by
  induction h using List.reverseRecOn with
  | nil => rfl
  | append_singleton h op ih =>
    rw [privRun_append_singleton, privStep_of_ne _ _ _ (hc op (by simp))]
    exact ih fun o ho => hc o (by simp [ho])

theorem run_eq_priv (bases : C → List C) (h : List (Op C N I)) (hw : Wellused bases h) (c : C) :
    run bases h c = privRun c h := by
  induction h using List.reverseRecOn generalizing c with
  | nil => rfl
  | append_singleton h op ih =>
    have hw' : Wellused bases h := fun o ho b hb =>
      ⟨(hw o (by simp [ho]) b hb).1, fun o' ho' => (hw o (by simp [ho]) b hb).2 o' (by simp [ho'])⟩
    have ih := fun c => ih hw' c
    have hbases : ∀ b ∈ bases op.cls, run bases h b = none := by
      intro b hb
      rw [ih b]
      exact privRun_none b h fun o ho => (hw op (by simp) b hb).2 o (by simp [ho])
    have hself : ∀ b ∈ bases op.cls, b ≠ op.cls := fun b hb => (hw op (by simp) b hb).1
    rw [run_append_singleton, privRun_append_singleton, ← ih c]
    cases op with
    | create c0 n i =>
      simp only [Op.cls] at hbases hself
      have hb2 : ∀ b ∈ bases c0, setAttr (run bases h) c0 [] b = none := by
        intro b hb
        simp [setAttr, hself b hb, hbases b hb]
      simp only [step, create, privStep]
      rw [owner_of_bases_none _ _ _ hbases]
      cases hc : (run bases h) c0 with
      | none =>
        simp only [Option.isSome_none, Bool.false_eq_true, if_false]
        rw [owner_of_bases_none _ _ _ hb2]
        by_cases hcc : c = c0
        · subst hcc; simp [setAttr, hc]
        · simp [setAttr, hcc, Ne.symm hcc]
      | some d =>
        simp only [Option.isSome_some, if_true]
        rw [owner_of_bases_none _ _ _ hbases, hc]
        by_cases hcc : c = c0
        · subst hcc; simp [setAttr, hc]
        · simp [setAttr, hcc, Ne.symm hcc]
    | del c0 n =>
      simp only [Op.cls] at hbases hself
      simp only [step, delInstance, privStep]
      rw [owner_of_bases_none _ _ _ hbases]
      cases hc : (run bases h) c0 with
      | none =>
        by_cases hcc : c0 = c
        · subst hcc; simp [hc]
        · simp [hcc]
      | some d =>
        simp only [Option.isSome_some, if_true, hc, Option.getD_some]
        by_cases hcc : c0 = c
        · subst hcc
          by_cases hd : d.has n = true
          · simp [hd, setAttr, hc]
          · have : d.erase n = d := Dict.erase_of_not_mem (by rw [← Dict.has_iff]; exact hd)
            simp [hd, hc, this]
        · by_cases hd : d.has n = true
          · simp [hd, setAttr, hcc, Ne.symm hcc]
          · simp [hd, hcc]
    | clear c0 =>
      simp only [step, clearAll, privStep, setAttr]
      by_cases hcc : c = c0
      · subst hcc; simp
      · simp [hcc, Ne.symm hcc]

theorem registered_append_singleton (h : List (Op C N I)) (op : Op C N I) (c : C) (n : N) (i : I) :
    Registered (h ++ [op]) c n i ↔ op = .create c n i ∨ (¬ op.affects c n ∧ Registered h c n i) := by
  constructor
  · rintro ⟨h₁, h₂, he, hn⟩
    rcases List.eq_nil_or_concat h₂ with rfl | ⟨h₂', op', rfl⟩
    · have := List.append_inj' he rfl
      simp at this
      exact Or.inl this.2
    · right
      have he' : h ++ [op] = (h₁ ++ Op.create c n i :: h₂') ++ [op'] := by simpa using he
      obtain ⟨ha, hb⟩ := List.append_inj' he' rfl
      simp at hb; subst hb
      exact ⟨hn op (by simp), h₁, h₂', ha, fun o ho => hn o (by simp [ho])⟩
  · rintro (rfl | ⟨hn, h₁, h₂, rfl, h3⟩)
    · exact ⟨h, [], by simp, by simp⟩
    · refine ⟨h₁, h₂ ++ [op], by simp, ?_⟩
      intro o ho
      rcases List.mem_append.1 ho with ho | ho
      · exact h3 o ho
      · simp at ho; subst ho; exact hn

theorem privRun_get? (c : C) (h : List (Op C N I)) (n : N) (i : I) :
    ((privRun c h).getD []).get? n = some i ↔ Registered h c n i := by
  induction h using List.reverseRecOn with
  | nil =>
    simp only [privRun, List.foldl_nil, Option.getD_none, Dict.get?_nil, reduceCtorEq, false_iff]
    rintro ⟨h₁, h₂, he, -⟩; simp at he
  | append_singleton h op ih =>
    rw [privRun_append_singleton, registered_append_singleton]
    cases op with
    | create c0 n0 i0 =>
      by_cases hc : c0 = c
      · subst hc
        simp only [privStep, if_true, Option.getD_some, Dict.get?_set, Op.affects, true_and, Op.create.injEq]
        by_cases hn : n0 = n
        · simp [hn]
        · simp [hn, ih]
      · simp [privStep, hc, Op.affects, ih]
    | del c0 n0 =>
      by_cases hc : c0 = c
      · subst hc
        simp only [privStep, if_true, Op.affects, true_and, reduceCtorEq, false_or]
        have : ((Option.map (fun d => d.erase n0) (privRun c0 h)).getD [] : Dict N I)
            = Dict.erase ((privRun c0 h).getD []) n0 := by
          cases privRun c0 h <;> rfl
        rw [this, Dict.get?_erase]
        by_cases hn : n0 = n
        · simp [hn]
        · simp [hn, ih]
      · simp [privStep, hc, Op.affects, ih]
    | clear c0 =>
      by_cases hc : c0 = c
      · simp [privStep, hc, Op.affects]
      · simp [privStep, hc, Op.affects, ih]

theorem privRun_isSome (c : C) (h : List (Op C N I)) : (privRun c h).isSome ↔ Touched h c := by
  induction h using List.reverseRecOn with
  | nil => simp [privRun, Touched]
  | append_singleton h op ih =>
    rw [privRun_append_singleton]
    have ht : Touched (h ++ [op]) c ↔ Touched h c ∨ ((∃ n i, op = .create c n i) ∨ op = .clear c) := by
      unfold Touched
      constructor
      · rintro ⟨o, ho, hh⟩
        rcases List.mem_append.1 ho with ho | ho
        · exact Or.inl ⟨o, ho, hh⟩
        · simp at ho; subst ho; exact Or.inr hh
      · rintro (⟨o, ho, hh⟩ | hh)
        · exact ⟨o, by simp [ho], hh⟩
        · exact ⟨op, by simp, hh⟩
    rw [ht, ← ih]
    cases op with
    | create c0 n i => by_cases hc : c0 = c <;> simp [privStep, hc]
    | del c0 n => by_cases hc : c0 = c <;> simp [privStep, hc]
    | clear c0 => by_cases hc : c0 = c <;> simp [privStep, hc]

theorem privRun_wf (c : C) (h : List (Op C N I)) : Dict.WF ((privRun c h).getD []) := by
  induction h using List.reverseRecOn with
  | nil => exact Dict.wf_nil
  | append_singleton h op ih =>
    rw [privRun_append_singleton]
    cases op with
    | create c0 n i =>
      by_cases hc : c0 = c
      · simpa [privStep, hc] using Dict.wf_set ih n i
      · simpa [privStep, hc] using ih
    | del c0 n =>
      by_cases hc : c0 = c
      · simp only [privStep, hc, if_true]
        cases hp : privRun c h with
        | none => exact Dict.wf_nil
        | some d => rw [hp] at ih; exact Dict.wf_erase ih n
      · simpa [privStep, hc] using ih
    | clear c0 =>
      by_cases hc : c0 = c
      · simpa [privStep, hc] using Dict.wf_nil
      · simpa [privStep, hc] using ih

/-! ## C13 -/

section
variable (bases : C → List C) (h : List (Op C N I)) (hw : Wellused bases h)
  (c : C) (hc : BasesUntouched bases h c)
include hw hc

theorem owner_run : owner (run bases h) (c :: bases c) = if (run bases h c).isSome then some c else none := by
  apply owner_of_bases_none
  intro b hb
  rw [run_eq_priv bases h hw]
  exact privRun_none b h (hc b hb).2

/-- **C13.** After any history of creations, deletions and `clear_all` calls on any classes,
`Class[name]` returns the most recently created, not deleted instance of that name ... -/
theorem C13_lookup (n : N) (i : I) :
    getInstance (run bases h) c (bases c) n = .ok i ↔ Registered h c n i := by
  unfold getInstance
  rw [owner_run bases h hw c hc, ← privRun_get?, ← run_eq_priv bases h hw c]
  cases hr : run bases h c with
  | none => simp
  | some d =>
    simp only [Option.isSome_some, if_true, hr, Option.getD_some]
    cases d.get? n <;> simp

/-- **C13.** ... and otherwise raises `AttributeError` if the class never had an instance, else
`KeyError`. -/
theorem C13_lookup_error (n : N) (hn : ∀ i, ¬ Registered h c n i) :
    (¬ Touched h c → getInstance (run bases h) c (bases c) n = .error .attributeError) ∧
    (Touched h c → getInstance (run bases h) c (bases c) n = .error .keyError) := by
  have hg : ((privRun c h).getD []).get? n = none := by
    cases hg : ((privRun c h).getD []).get? n with
    | none => rfl
    | some i => exact absurd ((privRun_get? c h n i).1 hg) (hn i)
  unfold getInstance
  rw [owner_run bases h hw c hc, run_eq_priv bases h hw c]
  constructor
  · intro ht
    rw [← privRun_isSome] at ht
    simp [ht]
  · intro ht
    rw [← privRun_isSome] at ht
    simp [ht, run_eq_priv bases h hw c, hg]

/-- **C13.** Calls on one class never change what another class returns. -/
theorem C13_isolation (op : Op C N I) (hne : op.cls ≠ c) (hop : op.cls ∉ bases c)
    (hwop : Wellused bases (h ++ [op])) (n : N) :
    getInstance (run bases (h ++ [op])) c (bases c) n = getInstance (run bases h) c (bases c) n := by
  have hc' : BasesUntouched bases (h ++ [op]) c := by
    intro b hb
    refine ⟨(hc b hb).1, fun o ho => ?_⟩
    rcases List.mem_append.1 ho with ho | ho
    · exact (hc b hb).2 o ho
    · simp at ho; subst ho; rintro rfl; exact hop hb
  unfold getInstance
  rw [owner_run bases _ hwop c hc', owner_run bases h hw c hc, run_eq_priv bases _ hwop,
    run_eq_priv bases h hw, privRun_append_singleton, privStep_of_ne _ _ _ hne]
  split
  · rfl
  · rename_i o ho
    have : o = c := by
      split at ho
      · exact (Option.some.inj ho).symm
      · simp at ho
    subst this
    rw [run_eq_priv bases _ hwop, run_eq_priv bases h hw, privRun_append_singleton,
      privStep_of_ne _ _ _ hne]

/-! ## C14 -/

/-- **C14.** `find` returns, without duplicates, exactly the registered names for which the search
succeeds. -/
theorem C14_find (search : N → Bool) (ht : Touched h c) :
    ∃ l, find (run bases h) c (bases c) search = .ok l ∧ l.Nodup ∧
      ∀ n, n ∈ l ↔ search n = true ∧ ∃ i, Registered h c n i := by
  unfold find
  rw [owner_run bases h hw c hc, run_eq_priv bases h hw c]
  rw [← privRun_isSome] at ht
  simp only [ht, if_true]
  rw [run_eq_priv bases h hw c]
  refine ⟨_, rfl, (privRun_wf c h).sublist List.filter_sublist, fun n => ?_⟩
  rw [List.mem_filter, ← Dict.get?_isSome_iff, Option.isSome_iff_exists, and_comm]
  constructor
  · rintro ⟨h1, i, hi⟩; exact ⟨h1, i, (privRun_get? c h n i).1 hi⟩
  · rintro ⟨h1, i, hi⟩; exact ⟨h1, i, (privRun_get? c h n i).2 hi⟩

/-- **C14.** The order is the order of registration: a creation under a new name appends it, under an
existing name keeps its place, a deletion removes the name and keeps the order of the others. -/
theorem C14_find_order (op : Op C N I) (hwop : Wellused bases (h ++ [op]))
    (hc' : BasesUntouched bases (h ++ [op]) c) (search : N → Bool) (l : List N)
    (hl : find (run bases h) c (bases c) (fun _ => true) = .ok l) :
    (∀ n i, op = .create c n i → find (run bases (h ++ [op])) c (bases c) search =
      .ok ((if n ∈ l then l else l ++ [n]).filter search)) ∧
    (∀ n, op = .del c n → find (run bases (h ++ [op])) c (bases c) search =
      .ok ((l.filter fun m => decide (m ≠ n)).filter search)) ∧
    (op = .clear c → find (run bases (h ++ [op])) c (bases c) search = .ok []) := by
  unfold find at hl ⊢
  rw [owner_run bases h hw c hc] at hl
  rw [owner_run bases _ hwop c hc']
  simp only [run_eq_priv bases _ hwop, run_eq_priv bases h hw, privRun_append_singleton] at hl ⊢
  cases hr : privRun c h with
  | none => rw [hr] at hl; simp at hl
  | some d =>
    rw [hr] at hl
    simp only [Option.isSome_some, if_true, hr, Option.getD_some, Except.ok.injEq] at hl
    have hl : d.keys = l := by rw [← hl]; exact (List.filter_eq_self.2 (fun _ _ => rfl)).symm
    refine ⟨?_, ?_, ?_⟩
    · rintro n i rfl
      simp only [privStep, if_true, Option.isSome_some, run_eq_priv bases _ hwop,
        privRun_append_singleton, hr, Option.getD_some, Dict.keys_set, hl]
    · rintro n rfl
      simp only [privStep, if_true, Option.map_some, Option.isSome_some, run_eq_priv bases _ hwop,
        privRun_append_singleton, hr, Option.getD_some, Dict.keys_erase, hl]
    · rintro rfl
      simp only [privStep, if_true, Option.isSome_some, run_eq_priv bases _ hwop,
        privRun_append_singleton, Option.getD_some, Dict.keys_nil, List.filter_nil]
end

/-! ## flavio's own classes -/

/-- In flavio's hierarchy the hypothesis of C13/C14 just says that `NamedInstanceClass` itself is never
used. -/
theorem wellused_flavio (h : List (Op Cls N I)) (hb : ∀ op ∈ h, op.cls ≠ .namedInstanceClass) :
    Wellused Cls.bases h ∧ ∀ c, c ≠ .namedInstanceClass → BasesUntouched Cls.bases h c := by
  have : ∀ c, c ≠ Cls.namedInstanceClass → BasesUntouched Cls.bases h c := by
    intro c hc b hbm
    cases c <;> simp [Cls.bases] at hbm hc <;> subst hbm <;> exact ⟨by decide, hb⟩
  exact ⟨fun op ho => this _ (hb op ho), this⟩

/-- **C13** for flavio's classes, as a user meets it. -/
theorem C13_flavio (h : List (Op Cls N I)) (hb : ∀ op ∈ h, op.cls ≠ .namedInstanceClass)
    (c : Cls) (hc : c ≠ .namedInstanceClass) (n : N) (i : I) :
    getInstance (run Cls.bases h) c c.bases n = .ok i ↔ Registered h c n i :=
  C13_lookup Cls.bases h (wellused_flavio h hb).1 c ((wellused_flavio h hb).2 c hc) n i

/-- The hypothesis is needed: once `NamedInstanceClass('x')` was created, `Parameter` and `Observable`
share its registry. -/
theorem C13_base_instance_breaks_isolation :
    getInstance (run Cls.bases [.create .namedInstanceClass "x" 0, .create .parameter "a" 1])
      .observable Cls.observable.bases "a" = .ok 1 := by decide

/-- Non-vacuity: a mixed history. -/
def exHist : List (Op Cls String Nat) :=
  [.create .parameter "a" 1, .create .observable "a" 2, .create .parameter "b" 3, .del .parameter "zz",
   .create .parameter "a" 4, .del .parameter "b", .clear .measurement]

example : (∀ op ∈ exHist, op.cls ≠ .namedInstanceClass) ∧ Registered exHist .parameter "a" 4 ∧
    Touched exHist .parameter := by
  refine ⟨by decide, ?_, ⟨_, List.mem_cons_self, Or.inl ⟨_, _, rfl⟩⟩⟩
  rw [← C13_flavio exHist (by decide) .parameter (by decide)]
  decide
example : getInstance (run Cls.bases exHist) .parameter Cls.parameter.bases "b" = .error .keyError ∧
    getInstance (run Cls.bases exHist) .implementation Cls.implementation.bases "b" = .error .attributeError := by
  decide
example : find (run Cls.bases exHist) .parameter Cls.parameter.bases (fun _ => true) = .ok ["a"] := by
  decide

end Verif.Registry
