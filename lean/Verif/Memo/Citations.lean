import Verif.Memo.Theorems
import Mathlib.Data.String.Basic
/-!
# Citations registered inside memoised functions

`Observable.theory_citations` evaluates the prediction in a new citation scope
(/repo/flavio/classes.py:708-717).  The papers Greub:2008cy and Seidel:2004jh are registered inside functions that
are memoised (/repo/flavio/physics/bdecays/matrixelements.py:72-122, l.158-180), so whether they are reported
depends on what was computed before in the same process.
-/
set_option linter.unusedSectionVars false
set_option linter.unusedSimpArgs false
set_option linter.unusedVariables false
namespace Verif.Memo
open Verif.Py

variable {F K V C : Type} [DecidableEq F] [DecidableEq K]

/-- Specification: all papers a prediction rests on — those registered directly, and those registered by the
functions it calls. -/
def allCites (fn : F → Fn K V C) (ps : List (PStep F K C)) : List C :=
  ps.flatMap (fun p => match p with | .cite c => [c] | .memo f _ => (fn f).cites)

/-- Specification: the papers registered outside memoised functions. -/
def directCites (ps : List (PStep F K C)) : List C :=
  ps.flatMap (fun p => match p with | .cite c => [c] | .memo _ _ => [])

/-- Specification: the arguments with which the memoised function `f` is called. -/
def keysFor (f : F) (ps : List (PStep F K C)) : List K :=
  ps.filterMap (fun p => match p with | .memo g k => if g = f then some k else none | .cite _ => none)

/-- Specification: no function called by the prediction raises. -/
def Total (fn : F → Fn K V C) (ps : List (PStep F K C)) : Prop :=
  ∀ f k, PStep.memo f k ∈ ps → returns (fn f).body k = true

/-- Specification: the caches are the result of earlier use of the functions. -/
def Reachable (fn : F → Fn K V C) (w : World F K V) : Prop :=
  ∀ f, ∃ h, w f = run (fn f).maxsize (fn f).body h

theorem pstep_reachable {fn : F → Fn K V C} {w : World F K V} (hw : Reachable fn w) (p : PStep F K C) :
    Reachable fn (pstep fn w p).2.1 := by
  cases p with
  | cite c => exact hw
  | memo f k =>
    intro g
    simp only [pstep, World.set]
    by_cases hg : g = f
    · subst hg
      obtain ⟨h, hh⟩ := hw g
      refine ⟨h ++ [.call k], ?_⟩
      rw [if_pos rfl, hh]; simp [run, step]
    · rw [if_neg hg]; exact hw g

theorem predict_reachable {fn : F → Fn K V C} (ps : List (PStep F K C)) {w : World F K V} (hw : Reachable fn w) :
    Reachable fn (predict fn w ps).2.1 := by
  induction ps generalizing w with
  | nil => exact hw
  | cons p ps ih =>
    unfold predict
    by_cases he : (pstep fn w p).2.2 = true
    · simp only [he, if_true]; exact pstep_reachable hw p
    · simp only [he]; exact ih (pstep_reachable hw p)

/-- A call on arguments on which the function returns does not raise (in any reachable state). -/
theorem call_ok {m : Option Nat} {body : K → Except PyErr V} (s : State K V) {k : K} (hk : returns body k = true) :
    ∃ a, (call m body s k).1.res = .ok a := by
  unfold call
  cases hl : lookup s.cache k with
  | some a => exact ⟨a, rfl⟩
  | none =>
    unfold miss
    unfold returns at hk
    cases hb : body k with
    | ok v => exact ⟨_, rfl⟩
    | error e => simp [hb] at hk

theorem pstep_ok {fn : F → Fn K V C} (w : World F K V) (p : PStep F K C)
    (hp : ∀ f k, p = .memo f k → returns (fn f).body k = true) : (pstep fn w p).2.2 = false := by
  cases p with
  | cite c => rfl
  | memo f k =>
    obtain ⟨a, ha⟩ := call_ok (m := (fn f).maxsize) (w f) (hp f k rfl)
    simp only [pstep, ha]

theorem predict_cons {fn : F → Fn K V C} (w : World F K V) (p : PStep F K C) (ps : List (PStep F K C))
    (ht : Total fn (p :: ps)) :
    predict fn w (p :: ps) =
      ((pstep fn w p).1 ++ (predict fn (pstep fn w p).2.1 ps).1, (predict fn (pstep fn w p).2.1 ps).2) := by
  have := pstep_ok w p (fun f k e => ht f k (by rw [e]; simp))
  simp [predict, this]

theorem Total.tail {fn : F → Fn K V C} {p : PStep F K C} {ps : List (PStep F K C)} (ht : Total fn (p :: ps)) :
    Total fn ps := fun f k h => ht f k (List.mem_cons_of_mem _ h)

theorem predict_ok {fn : F → Fn K V C} (ps : List (PStep F K C)) (w : World F K V) (ht : Total fn ps) :
    (predict fn w ps).2.2 = false := by
  induction ps generalizing w with
  | nil => rfl
  | cons p ps ih => rw [predict_cons w p ps ht]; exact ih _ ht.tail

/-- Soundness: nothing is registered that the prediction does not use; direct registrations always happen. -/
theorem predict_bounds {fn : F → Fn K V C} (ps : List (PStep F K C)) (w : World F K V) (ht : Total fn ps) (c : C) :
    (c ∈ directCites ps → c ∈ (predict fn w ps).1) ∧ (c ∈ (predict fn w ps).1 → c ∈ allCites fn ps) := by
  induction ps generalizing w with
  | nil => simp [predict, directCites, allCites]
  | cons p ps ih =>
    rw [predict_cons w p ps ht]
    obtain ⟨i1, i2⟩ := ih (pstep fn w p).2.1 ht.tail
    simp only [directCites, allCites, List.flatMap_cons, List.mem_append] at i1 i2 ⊢
    constructor
    · rintro (h | h)
      · left
        cases p with
        | cite d => exact h
        | memo f k => simp at h
      · exact .inr (i1 h)
    · rintro (h | h)
      · left
        cases p with
        | cite d => exact h
        | memo f k =>
          simp only [pstep] at h
          split_ifs at h
          · exact h
          · simp at h
      · exact .inr (i2 h)

/-- The keys of a function after the steps of a prediction. -/
theorem keys_predict {fn : F → Fn K V C} (ps : List (PStep F K C)) (w : World F K V) (ht : Total fn ps)
    (f : F) (r : List K) (hr : r.Nodup) (hw : keysOf (w f) = trunc (fn f).maxsize r) :
    keysOf ((predict fn w ps).2.1 f) = trunc (fn f).maxsize ((keysFor f ps).foldl touch r) := by
  induction ps generalizing w r with
  | nil => simpa [predict, keysFor] using hw
  | cons p ps ih =>
    rw [predict_cons w p ps ht]
    cases p with
    | cite c =>
      have := ih w ht.tail r hr hw
      simpa [keysFor, pstep] using this
    | memo g k =>
      have hk : returns (fn g).body k = true := ht g k (by simp)
      by_cases hg : g = f
      · subst hg
        have h1 : keysOf ((pstep fn w (.memo g k)).2.1 g) = trunc (fn g).maxsize (touch r k) := by
          have := keys_call (fn g).maxsize (fn g).body (w g) k r hr hw (fun _ => hk)
          rw [if_pos hk] at this
          simpa [pstep, World.set] using this
        have h2 := ih _ ht.tail (touch r k) (touch_nodup hr k) h1
        simpa [keysFor] using h2
      · have h1 : keysOf ((pstep fn w (.memo g k)).2.1 f) = trunc (fn f).maxsize r := by
          simpa [pstep, World.set, Ne.symm hg] using hw
        have h2 := ih _ ht.tail r hr h1
        simpa [keysFor, hg] using h2

/-- Everything cached: only the direct registrations happen. -/
theorem predict_warm {fn : F → Fn K V C} (ps : List (PStep F K C)) (w : World F K V) (ht : Total fn ps)
    (hw : ∀ f k, PStep.memo f k ∈ ps → k ∈ keysOf (w f)) :
    (predict fn w ps).1 = directCites ps := by
  induction ps generalizing w with
  | nil => simp [predict, directCites]
  | cons p ps ih =>
    rw [predict_cons w p ps ht]
    cases p with
    | cite c =>
      have := ih w ht.tail (fun f k h => hw f k (List.mem_cons_of_mem _ h))
      simp only [directCites, List.flatMap_cons] at this ⊢
      rw [← this]; rfl
    | memo f k =>
      have hk := hw f k (by simp)
      have hran : (call (fn f).maxsize (fn f).body (w f) k).1.ran = false := by
        rw [← Bool.not_eq_true, ran_iff]; simpa using hk
      have hstep : (pstep fn w (.memo f k)).1 = [] := by simp [pstep, hran]
      have hkeys : ∀ g j, j ∈ keysOf (w g) → j ∈ keysOf ((pstep fn w (.memo f k)).2.1 g) := by
        intro g j hj
        simp only [pstep, World.set]
        by_cases hg : g = f
        · subst hg
          rw [if_pos rfl]
          unfold call
          cases hl : lookup (w g).cache k with
          | none => exact absurd hk ((lookup_none_iff _ _).1 hl)
          | some a =>
            simp only [keysOf, List.map_cons, map_filter_ne, List.mem_cons, List.mem_filter]
            by_cases hjk : j = k
            · exact .inl hjk
            · exact .inr ⟨hj, by simpa using hjk⟩
        · rw [if_neg hg]; exact hj
      have := ih _ ht.tail (fun g j h => hkeys g j (hw g j (List.mem_cons_of_mem _ h)))
      rw [hstep, this]
      simp [directCites]

/-- First use of all the functions: everything is registered. -/
theorem predict_cold {fn : F → Fn K V C} (ps : List (PStep F K C)) (w : World F K V) (ht : Total fn ps)
    (hw : ∀ f k, PStep.memo f k ∈ ps → k ∉ keysOf (w f)) (c : C) :
    c ∈ (predict fn w ps).1 ↔ c ∈ allCites fn ps := by
  refine ⟨(predict_bounds ps w ht c).2, ?_⟩
  -- generalise: a function is either still cold on the remaining keys, or its citations are registered already
  have gen : ∀ (ps : List (PStep F K C)) (w : World F K V) (acc : List C), Total fn ps →
      (∀ f k, PStep.memo f k ∈ ps → k ∉ keysOf (w f) ∨ ∀ c ∈ (fn f).cites, c ∈ acc) →
      ∀ c ∈ allCites fn ps, c ∈ acc ∨ c ∈ (predict fn w ps).1 := by
    intro ps
    induction ps with
    | nil => intro w acc _ _ c hc; simp [allCites] at hc
    | cons p ps ih =>
      intro w acc ht hw c hc
      rw [predict_cons w p ps ht]
      simp only [allCites, List.flatMap_cons, List.mem_append] at hc
      cases p with
      | cite d =>
        rcases hc with h | h
        · exact .inr (List.mem_append_left _ h)
        · rcases ih w acc ht.tail (fun f k hm => hw f k (List.mem_cons_of_mem _ hm)) c h with h' | h'
          · exact .inl h'
          · exact .inr (List.mem_append_right _ h')
      | memo f k =>
        have hf := hw f k (by simp)
        have hreg : ∀ c ∈ (fn f).cites, c ∈ acc ∨ c ∈ (pstep fn w (.memo f k)).1 := by
          intro d hd
          rcases hf with hf | hf
          · right
            have hran : (call (fn f).maxsize (fn f).body (w f) k).1.ran = true := (ran_iff _ _ _ _).2 hf
            simp only [pstep, hran, if_true]; exact hd
          · exact .inl (hf d hd)
        have hnext : ∀ g j, PStep.memo g j ∈ ps → j ∉ keysOf ((pstep fn w (.memo f k)).2.1 g) ∨
            ∀ c ∈ (fn g).cites, c ∈ acc ++ (pstep fn w (.memo f k)).1 := by
          intro g j hm
          by_cases hg : g = f
          · subst hg
            right
            intro d hd
            rcases hreg d hd with h | h
            · exact List.mem_append_left _ h
            · exact List.mem_append_right _ h
          · rcases hw g j (List.mem_cons_of_mem _ hm) with h | h
            · left
              simp only [pstep, World.set, if_neg hg]; exact h
            · exact .inr (fun d hd => List.mem_append_left _ (h d hd))
        rcases hc with h | h
        · rcases hreg c h with h' | h'
          · exact .inl h'
          · exact .inr (List.mem_append_left _ h')
        · rcases ih _ (acc ++ (pstep fn w (.memo f k)).1) ht.tail hnext c h with h' | h'
          · rcases List.mem_append.1 h' with h'' | h''
            · exact .inl h''
            · exact .inr (List.mem_append_left _ h'')
          · exact .inr (List.mem_append_right _ h')
  intro hc
  rcases gen ps w [] ht (fun f k h => .inl (hw f k h)) c hc with h | h
  · simp at h
  · exact h

variable [LinearOrder C]

/-- The set returned by `theory_citations` is the set of registered keys. -/
theorem theoryCitations_mem (known : List C) {fn : F → Fn K V C} (w : World F K V) (ps : List (PStep F K C))
    (ht : Total fn ps) (hk : ∀ c ∈ allCites fn ps, c ∈ known) :
    ∃ l, (theoryCitations known fn w ps).1 = .ok l ∧ ∀ c, c ∈ l ↔ c ∈ (predict fn w ps).1 := by
  obtain ⟨keys, c0, h0, i0, hkeys, -, hset⟩ := Citations.new_ok known ([] : List C)
  obtain ⟨c1, h1, -, -, hset1⟩ := Citations.registerAll_ok (predict fn w ps).1 i0
    (fun c hc => (hkeys c).2 (.inl (hk c ((predict_bounds ps w ht c).2 hc))))
  refine ⟨Citations.set c1, ?_, ?_⟩
  · unfold theoryCitations
    have hp := predict_ok ps w ht
    simp only [hp, h0, Bool.false_eq_true, if_false, ok_bind_eq, h1]
    rfl
  · intro c
    rw [hset1, hset]; simp

/-- **C154.** In every state of the process the answer is between the papers registered directly and all the
papers the prediction rests on. -/
theorem C154_bounds (known : List C) (fn : F → Fn K V C) (w : World F K V) (ps : List (PStep F K C))
    (ht : Total fn ps) (hk : ∀ c ∈ allCites fn ps, c ∈ known) :
    ∃ l, (theoryCitations known fn w ps).1 = .ok l ∧ (∀ c ∈ directCites ps, c ∈ l) ∧
      ∀ c ∈ l, c ∈ allCites fn ps := by
  obtain ⟨l, hl, hm⟩ := theoryCitations_mem known w ps ht hk
  refine ⟨l, hl, fun c hc => (hm c).2 ((predict_bounds ps w ht c).1 hc),
    fun c hc => (predict_bounds ps w ht c).2 ((hm c).1 hc)⟩

/-- **C154.** The answer is complete when none of the memoised calls of the prediction is in a cache (for instance
in a new process). -/
theorem C154_first_time_partial (known : List C) (fn : F → Fn K V C) (w : World F K V) (ps : List (PStep F K C))
    (ht : Total fn ps) (hk : ∀ c ∈ allCites fn ps, c ∈ known)
    (hw : ∀ f k, PStep.memo f k ∈ ps → k ∉ keysOf (w f)) :
    ∃ l, (theoryCitations known fn w ps).1 = .ok l ∧ ∀ c, c ∈ l ↔ c ∈ allCites fn ps := by
  obtain ⟨l, hl, hm⟩ := theoryCitations_mem known w ps ht hk
  exact ⟨l, hl, fun c => (hm c).trans (predict_cold ps w ht hw c)⟩

/-- **C154 (why only partial).** Asking after the same prediction has been evaluated once — by an earlier
`theory_citations` or by a plain prediction — returns only the papers registered outside memoised functions,
whatever happened before the first evaluation, as long as the arguments of the prediction fit into the caches. -/
theorem C154_second_time_incomplete (known : List C) (fn : F → Fn K V C) (w : World F K V) (ps : List (PStep F K C))
    (ht : Total fn ps) (hk : ∀ c ∈ allCites fn ps, c ∈ known) (hw : Reachable fn w)
    (hfit : ∀ f n, (fn f).maxsize = some n → (keysFor f ps).dedup.length ≤ n) :
    ∃ l, (theoryCitations known fn (theoryCitations known fn w ps).2 ps).1 = .ok l ∧
      ∀ c, c ∈ l ↔ c ∈ directCites ps := by
  obtain ⟨l, hl, hm⟩ := theoryCitations_mem known (predict fn w ps).2.1 ps ht hk
  refine ⟨l, hl, fun c => (hm c).trans ?_⟩
  rw [predict_warm ps _ ht]
  intro f k hmem
  obtain ⟨h, hh⟩ := hw f
  have hkf := keys_predict ps w ht f ((okCalls (fn f).body h).foldl touch []) (foldl_touch_nodup _)
    (by rw [hh]; exact (run_inv _ _ h).keys)
  rw [hkf, foldl_touch]
  have hin : k ∈ (keysFor f ps).dedup.reverse := by
    rw [List.mem_reverse, List.mem_dedup]
    exact List.mem_filterMap.2 ⟨_, hmem, by simp⟩
  cases hms : (fn f).maxsize with
  | none => exact List.mem_append_left _ hin
  | some n =>
    simp only [trunc]
    rw [List.take_append]
    refine List.mem_append_left _ ?_
    rw [List.take_of_length_le (by rw [List.length_reverse]; exact hfit f n hms)]
    exact hin

/-! ## The two-loop corrections to `C7` and `C9` -/

/-- The memoised functions of /repo/flavio/physics/bdecays/matrixelements.py:72-176. -/
inductive MeFn where
  | F17 | F19 | F27 | F29 | SeidelA | SeidelB
  deriving DecidableEq

/-- Their sizes and citations (/repo/flavio/physics/bdecays/matrixelements.py:72-122, l.158-180; the cache size
is /repo/flavio/data/config.yml:18). The values computed are left abstract. -/
def meFn (body : MeFn → K → Except PyErr V) (f : MeFn) : Fn K V String where
  maxsize := some 1000
  cites := match f with
    | .SeidelA | .SeidelB => ["Seidel:2004jh"]
    | _ => ["Greub:2008cy"]
  body := body f

/-- /repo/flavio/physics/bdecays/matrixelements.py:225-243 `delta_C7` (with `Fu_17`, `Fu_27`, l.212-216): `a` is
`(muh, z, sh)`, `b` is `(q2, mb, scale)`. -/
def deltaC7 (a b : K) : List (PStep MeFn K String) :=
  [.memo .F17 a, .memo .F27 a, .memo .SeidelA b, .memo .SeidelA b]

/-- /repo/flavio/physics/bdecays/matrixelements.py:245-264 `delta_C9` (with `Fu_19`, `Fu_29`, l.218-222, which call
the memoised `SeidelB` and the plain `SeidelC`). -/
def deltaC9 (a b : K) : List (PStep MeFn K String) :=
  [.memo .F19 a, .memo .F29 a, .memo .SeidelB b, .cite "Seidel:2004jh", .memo .SeidelB b, .cite "Seidel:2004jh"]

/-- **C154.** For the corrections to `C7` and `C9` at any kinematic point: a first evaluation reports both papers;
repeating it reports none for `C7` and only Seidel:2004jh for `C9` — Greub:2008cy is lost. -/
theorem C154_delta_C7_C9 (body : MeFn → K → Except PyErr V) (hb : ∀ f k, returns (body f) k = true) (a b : K)
    (known : List String) (h1 : "Greub:2008cy" ∈ known) (h2 : "Seidel:2004jh" ∈ known) (c : String) :
    let w : World MeFn K V := fun _ => {}
    let t := fun w p => theoryCitations known (meFn body) w p
    ((∃ l, (t w (deltaC7 a b)).1 = .ok l ∧ (c ∈ l ↔ c = "Greub:2008cy" ∨ c = "Seidel:2004jh")) ∧
     (∃ l, (t (t w (deltaC7 a b)).2 (deltaC7 a b)).1 = .ok l ∧ c ∉ l)) ∧
    ((∃ l, (t w (deltaC9 a b)).1 = .ok l ∧ (c ∈ l ↔ c = "Greub:2008cy" ∨ c = "Seidel:2004jh")) ∧
     (∃ l, (t (t w (deltaC9 a b)).2 (deltaC9 a b)).1 = .ok l ∧ (c ∈ l ↔ c = "Seidel:2004jh"))) := by
  intro w t
  have hw : Reachable (meFn body) w := fun f => ⟨[], rfl⟩
  have tot : ∀ ps, Total (meFn body) ps := fun ps f k _ => hb f k
  have cites : ∀ ps : List (PStep MeFn K String), (∀ c ∈ directCites ps, c = "Seidel:2004jh") →
      ∀ c ∈ allCites (meFn body) ps, c ∈ known := by
    intro ps hps c hc
    unfold allCites at hc
    obtain ⟨p, hp, hc⟩ := List.mem_flatMap.1 hc
    cases p with
    | cite d =>
      have : c = "Seidel:2004jh" := hps c (List.mem_flatMap.2 ⟨_, hp, by simpa using hc⟩)
      rw [this]; exact h2
    | memo f k =>
      simp only [meFn] at hc
      cases f <;> simp at hc <;> subst hc <;> assumption
  have cold : ∀ f k (ps : List (PStep MeFn K String)), PStep.memo f k ∈ ps → k ∉ keysOf (w f) := by
    intro f k ps _; simp [w, keysOf]
  have hd7 : directCites (deltaC7 a b) = [] := by simp [directCites, deltaC7]
  have hd9 : directCites (deltaC9 a b) = ["Seidel:2004jh", "Seidel:2004jh"] := by simp [directCites, deltaC9]
  have len : ∀ ps : List (PStep MeFn K String), ps.length ≤ 1000 → ∀ f n, (meFn body f).maxsize = some n →
      (keysFor f ps).dedup.length ≤ n := by
    intro ps hl f n hn
    simp only [meFn, Option.some.injEq] at hn
    have h1 := (List.dedup_sublist (keysFor f ps)).length_le
    have h2 : (keysFor f ps).length ≤ ps.length := List.length_filterMap_le _ _
    omega
  refine ⟨⟨?_, ?_⟩, ⟨?_, ?_⟩⟩
  · obtain ⟨l, hl, hm⟩ := C154_first_time_partial known (meFn body) w (deltaC7 a b) (tot _)
      (cites _ (by rw [hd7]; simp)) (fun f k h => cold f k _ h)
    exact ⟨l, hl, by rw [hm]; simp [allCites, deltaC7, meFn]⟩
  · obtain ⟨l, hl, hm⟩ := C154_second_time_incomplete known (meFn body) w (deltaC7 a b) (tot _)
      (cites _ (by rw [hd7]; simp)) hw (len _ (by simp [deltaC7]))
    exact ⟨l, hl, by rw [hm, hd7]; simp⟩
  · obtain ⟨l, hl, hm⟩ := C154_first_time_partial known (meFn body) w (deltaC9 a b) (tot _)
      (cites _ (by rw [hd9]; simp)) (fun f k h => cold f k _ h)
    exact ⟨l, hl, by rw [hm]; simp [allCites, deltaC9, meFn]⟩
  · obtain ⟨l, hl, hm⟩ := C154_second_time_incomplete known (meFn body) w (deltaC9 a b) (tot _)
      (cites _ (by rw [hd9]; simp)) hw (len _ (by simp [deltaC9]))
    exact ⟨l, hl, by rw [hm, hd9]; simp⟩

/-- Non-vacuity: total functions exist. -/
example : ∀ f k, returns ((fun _ k => .ok k : MeFn → ℕ → Except PyErr ℕ) f) k = true := fun _ _ => rfl

end Verif.Memo
