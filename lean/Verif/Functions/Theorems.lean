import Verif.Functions.Model
import Verif.Likelihood.Theorems
import Mathlib.Data.List.Nodup
import Mathlib.Data.List.Forall2

/-!
# Property theorems about `flavio.functions` (C52–C56)
-/
set_option linter.unusedSectionVars false
set_option linter.unusedSimpArgs false
set_option linter.unusedVariables false

namespace Verif.Functions
open Verif.Py Verif.Constraints Verif.Likelihood

variable {K V A : Type} [DecidableEq K]

/-! ## C52 -/

/-- The program only uses `par[k]`, `par.copy()` and assignments. (Specification.) -/
def Subscript : Prog K V A → Prop
  | .ret _ => True
  | .raise _ => True
  | .read _ _ f => ∀ v, Subscript (f v)
  | .get _ _ _ => False
  | .copy _ f => ∀ n, Subscript (f n)
  | .comprehension _ _ _ => False
  | .set _ _ _ f => Subscript f

/-- During the execution no dictionary that was assigned to is copied (dictionaries carry the flag
"was assigned to"). (Specification.) -/
def CopiesClean : Prog K V A → List (Dict K V × Bool) → Prop
  | .ret _, _ => True
  | .raise _, _ => True
  | .read h k f, H => match H[h]? with
    | none => True
    | some d => match d.1.get? k with
      | none => True
      | some v => CopiesClean (f v) H
  | .get h k f, H => match H[h]? with
    | none => True
    | some d => CopiesClean (f (d.1.get? k)) H
  | .copy h f, H => match H[h]? with
    | none => True
    | some d => d.2 = false ∧ CopiesClean (f H.length) (H ++ [d])
  | .comprehension h g f, H => match H[h]? with
    | none => True
    | some d => CopiesClean (f H.length) (H ++ [(mapDict g d.1, false)])
  | .set h k v f, H => match H[h]? with
    | none => True
    | some d => CopiesClean f (H.set h (d.1.set k v, true))

/-- The keys read with `par[k]` in an execution with ordinary dictionaries. (Specification.) -/
def readsPlain : Prog K V A → List (Dict K V) → List K
  | .ret _, _ => []
  | .raise _, _ => []
  | .read h k f, H => match H[h]? with
    | none => []
    | some d => k :: (match d.get? k with
      | none => []
      | some v => readsPlain (f v) H)
  | .get h k f, H => match H[h]? with
    | none => []
    | some d => readsPlain (f (d.get? k)) H
  | .copy h f, H => match H[h]? with
    | none => []
    | some d => readsPlain (f H.length) (H ++ [d])
  | .comprehension h g f, H => match H[h]? with
    | none => []
    | some d => readsPlain (f H.length) (H ++ [mapDict g d])
  | .set h k v f, H => match H[h]? with
    | none => []
    | some d => readsPlain f (H.set h (d.set k v))

/-- Relation between the dictionaries of two executions started from `d` and `d'`: at every key both
have the same entry, or each has its own original entry. (Specification.) -/
def HeapRel (d d' : Dict K V) (H H' : List (Dict K V)) : Prop :=
  H.length = H'.length ∧ ∀ (h : Nat) (x x' : Dict K V), H[h]? = some x → H'[h]? = some x' →
    ∀ k, x.get? k = x'.get? k ∨ (x.get? k = d.get? k ∧ x'.get? k = d'.get? k)

theorem HeapRel.append {d d' : Dict K V} {H H' : List (Dict K V)} (hr : HeapRel d d' H H')
    {x x' : Dict K V}
    (hx : ∀ k, x.get? k = x'.get? k ∨ (x.get? k = d.get? k ∧ x'.get? k = d'.get? k)) :
    HeapRel d d' (H ++ [x]) (H' ++ [x']) := by
  refine ⟨by simp [hr.1], fun h y y' hy hy' k => ?_⟩
  by_cases hlt : h < H.length
  · rw [List.getElem?_append_left hlt] at hy
    rw [List.getElem?_append_left (by rw [← hr.1]; exact hlt)] at hy'
    exact hr.2 h y y' hy hy' k
  · rw [List.getElem?_append_right (by omega)] at hy
    rw [List.getElem?_append_right (by rw [← hr.1]; omega)] at hy'
    rw [← hr.1] at hy'
    have h0 : h - H.length = 0 := by
      have := (List.getElem?_eq_some_iff.1 hy).1
      simp at this; omega
    rw [h0] at hy hy'
    simp only [List.getElem?_cons_zero, Option.some.injEq] at hy hy'
    subst hy; subst hy'
    exact hx k

theorem HeapRel.set {d d' : Dict K V} {H H' : List (Dict K V)} (hr : HeapRel d d' H H') {h : Nat}
    {x x' : Dict K V} (hx : H[h]? = some x) (hx' : H'[h]? = some x') (k : K) (v : V) :
    HeapRel d d' (H.set h (x.set k v)) (H'.set h (x'.set k v)) := by
  refine ⟨by simp [hr.1], fun g y y' hy hy' q => ?_⟩
  by_cases hg : h = g
  · subst hg
    have h1 := (List.getElem?_eq_some_iff.1 hx).1
    have h2 := (List.getElem?_eq_some_iff.1 hx').1
    rw [List.getElem?_set_self h1] at hy
    rw [List.getElem?_set_self h2] at hy'
    simp only [Option.some.injEq] at hy hy'
    subst hy; subst hy'
    rw [Dict.get?_set, Dict.get?_set]
    by_cases hk : k = q
    · simp [hk]
    · simp only [hk, if_false]
      exact hr.2 h x x' hx hx' q
  · rw [List.getElem?_set_ne hg] at hy hy'
    exact hr.2 g y y' hy hy' q

theorem runPlain_agree (d d' : Dict K V) (p : Prog K V A) (hp : Subscript p)
    (H H' : List (Dict K V)) (hr : HeapRel d d' H H')
    (hag : ∀ k ∈ readsPlain p H, d.get? k = d'.get? k) : runPlain p H = runPlain p H' := by
  have hnone : ∀ h : Nat, H[h]? = none ↔ H'[h]? = none := by
    intro h; rw [List.getElem?_eq_none_iff, List.getElem?_eq_none_iff, hr.1]
  induction p generalizing H H' with
  | ret a => rfl
  | raise e => rfl
  | read h k f ih =>
    unfold runPlain
    cases hx : H[h]? with
    | none => rw [(hnone h).1 hx]
    | some x =>
      obtain ⟨x', hx'⟩ : ∃ x', H'[h]? = some x' := by
        cases hx' : H'[h]? with
        | none => rw [(hnone h).2 hx'] at hx; exact absurd hx (by simp)
        | some x' => exact ⟨x', rfl⟩
      have hk : d.get? k = d'.get? k := by
        apply hag
        unfold readsPlain
        rw [hx]; simp
      have hxx : x.get? k = x'.get? k := by
        rcases hr.2 h x x' hx hx' k with h1 | ⟨h1, h2⟩
        · exact h1
        · rw [h1, h2, hk]
      rw [hx']
      simp only [← hxx]
      cases hv : x.get? k with
      | none => rfl
      | some v =>
        simp only
        apply ih v (hp v) H H' hr _ hnone
        intro q hq
        apply hag
        unfold readsPlain
        rw [hx]
        simp only [hv]
        exact List.mem_cons_of_mem _ hq
  | get h k f ih => exact absurd hp (by simp [Subscript])
  | copy h f ih =>
    unfold runPlain
    cases hx : H[h]? with
    | none => rw [(hnone h).1 hx]
    | some x =>
      obtain ⟨x', hx'⟩ : ∃ x', H'[h]? = some x' := by
        cases hx' : H'[h]? with
        | none => rw [(hnone h).2 hx'] at hx; exact absurd hx (by simp)
        | some x' => exact ⟨x', rfl⟩
      rw [hx']
      simp only
      rw [← hr.1]
      have hr' := hr.append (hr.2 h x x' hx hx')
      apply ih _ (hp _) _ _ hr'
      · intro q hq
        apply hag
        unfold readsPlain
        rw [hx]
        exact hq
      · intro g; rw [List.getElem?_eq_none_iff, List.getElem?_eq_none_iff, hr'.1]
  | comprehension h g f ih => exact absurd hp (by simp [Subscript])
  | set h k v f ih =>
    unfold runPlain
    cases hx : H[h]? with
    | none => rw [(hnone h).1 hx]
    | some x =>
      obtain ⟨x', hx'⟩ : ∃ x', H'[h]? = some x' := by
        cases hx' : H'[h]? with
        | none => rw [(hnone h).2 hx'] at hx; exact absurd hx (by simp)
        | some x' => exact ⟨x', rfl⟩
      rw [hx']
      simp only
      have hr' := hr.set hx hx' k v
      apply ih hp _ _ hr'
      · intro q hq
        apply hag
        unfold readsPlain
        rw [hx]
        exact hq
      · intro g; rw [List.getElem?_eq_none_iff, List.getElem?_eq_none_iff, hr'.1]

/-- The tracked execution of a program that only subscripts and copies clean dictionaries gives the
same result as the ordinary one and records exactly the keys read. -/
theorem runAware_eq (orig : Dict K V) (p : Prog K V A) (hp : Subscript p)
    (H : List (Dict K V × Bool)) (hc : CopiesClean p H)
    (hinv : ∀ x ∈ H, x.2 = false → x.1 = orig) (ks : List K) :
    (runAware orig p (H.map fun x => (x.1, true)) ks).1 = runPlain p (H.map Prod.fst) ∧
    ∀ k, k ∈ (runAware orig p (H.map fun x => (x.1, true)) ks).2 ↔
      k ∈ ks ∨ k ∈ readsPlain p (H.map Prod.fst) := by
  induction p generalizing H ks with
  | ret a => simp [runAware, runPlain, readsPlain]
  | raise e => simp [runAware, runPlain, readsPlain]
  | read h k f ih =>
    unfold runAware runPlain readsPlain
    simp only [List.getElem?_map]
    cases hx : H[h]? with
    | none => simp
    | some x =>
      simp only [Option.map_some, if_true]
      cases hv : x.1.get? k with
      | none => simp [or_comm]
      | some v =>
        simp only
        have hc' : CopiesClean (f v) H := by
          unfold CopiesClean at hc
          simp only [hx, hv] at hc
          exact hc
        obtain ⟨h1, h2⟩ := ih v (hp v) H hc' hinv (k :: ks)
        refine ⟨h1, fun q => ?_⟩
        rw [h2]
        simp only [List.mem_cons]
        tauto
  | get h k f ih => exact absurd hp (by simp [Subscript])
  | copy h f ih =>
    unfold runAware runPlain readsPlain
    simp only [List.getElem?_map]
    cases hx : H[h]? with
    | none => simp
    | some x =>
      simp only [Option.map_some, if_true, List.length_map]
      unfold CopiesClean at hc
      simp only [hx] at hc
      have hxo : x.1 = orig := hinv x (List.mem_of_getElem? hx) hc.1
      have := ih H.length (hp _) (H ++ [x]) hc.2 (by
        intro y hy hy2
        rcases List.mem_append.1 hy with hy | hy
        · exact hinv y hy hy2
        · rw [List.mem_singleton] at hy; subst hy; exact hxo) ks
      rw [List.map_append, List.map_append] at this
      simp only [List.map_cons, List.map_nil] at this
      rw [← hxo]
      rw [← hxo] at this
      exact this
  | comprehension h g f ih => exact absurd hp (by simp [Subscript])
  | set h k v f ih =>
    unfold runAware runPlain readsPlain
    simp only [List.getElem?_map]
    cases hx : H[h]? with
    | none => simp
    | some x =>
      simp only [Option.map_some]
      unfold CopiesClean at hc
      simp only [hx] at hc
      have := ih hp (H.set h (x.1.set k v, true)) hc (by
        intro y hy hy2
        rcases List.mem_or_eq_of_mem_set hy with hy | hy
        · exact hinv y hy hy2
        · subst hy; simp at hy2) ks
      rw [List.map_set, List.map_set] at this
      exact this

/-- **C52, the part that holds** (missing: `par.get`, `k in par`, `par.items()` and copies of modified
dictionaries, see the three witnesses below).  For every prediction program that only subscripts the
dictionary and copies it before modifying it:
* `get_dependent_parameters_sm` returns exactly the existing parameters that the prediction reads;
* any change of values (or removal) of other existing parameters leaves the prediction unchanged. -/
theorem C52_dependency_tracking_partial (prog : Prog K V A) (central : Dict K V) (existing : List K)
    (hp : Subscript prog) (hc : CopiesClean prog [(central, false)]) (ks : List K)
    (h : getDependentParametersSM prog central existing = .ok ks) :
    (∀ k, k ∈ ks ↔ k ∈ existing ∧ k ∈ readsPlain prog [central]) ∧
    ∀ par : Dict K V, (∀ k, par.get? k ≠ central.get? k → k ∈ existing ∧ k ∉ ks) →
      predictionPar prog par = predictionPar prog central := by
  obtain ⟨h1, h2⟩ := runAware_eq central prog hp [(central, false)] hc (by simp) []
  simp only [List.map_cons, List.map_nil] at h1 h2
  have hks : ∀ k, k ∈ ks ↔ k ∈ existing ∧ k ∈ readsPlain prog [central] := by
    intro k
    unfold getDependentParametersSM at h
    rcases hr : runAware central prog [(central, true)] [] with ⟨r, l⟩
    rw [hr] at h h2
    cases r with
    | error e => simp at h
    | ok a =>
      simp only [Except.ok.injEq] at h
      subst h
      rw [List.mem_filter, decide_eq_true_eq, h2]
      simp [and_comm]
  refine ⟨hks, fun par hpar => ?_⟩
  unfold predictionPar
  symm
  apply runPlain_agree central par prog hp
  · refine ⟨rfl, fun h x x' hx hx' k => ?_⟩
    have h0 : h = 0 := by
      have := (List.getElem?_eq_some_iff.1 hx).1
      simp at this; omega
    subst h0
    simp only [List.getElem?_cons_zero, Option.some.injEq] at hx hx'
    subst hx; subst hx'
    exact Or.inr ⟨rfl, rfl⟩
  · intro k hk
    by_contra hne
    obtain ⟨h3, h4⟩ := hpar k (Ne.symm hne)
    exact h4 ((hks k).2 ⟨h3, hk⟩)

/-- Non-vacuity: a program that reads `a`, and `b` only if `a` is 1, works on a copy and assigns. -/
def exProg : Prog String Int Int :=
  .copy 0 fun c => .set c "x" 5 (.read c "a" fun a => if a = 1 then .read 0 "b" fun b => .ret (a + b)
    else .read c "x" fun x => .ret (a + x))

example : Subscript exProg ∧ CopiesClean exProg [([("a", 1), ("b", 2), ("c", 3)], false)] ∧
    getDependentParametersSM exProg [("a", 1), ("b", 2), ("c", 3)] ["a", "b", "c"] = .ok ["b", "a"] ∧
    predictionPar exProg [("a", 1), ("b", 2), ("c", 3)] = .ok 3 ∧
    predictionPar exProg [("a", 2), ("b", 2), ("c", 3)] = .ok 7 := by
  refine ⟨?_, ⟨rfl, trivial⟩, by decide +kernel, by decide +kernel, by decide +kernel⟩
  intro n
  show ∀ a : Int, Subscript (if a = 1 then _ else _)
  intro a
  split <;> (intro _; trivial)

/-- **C52 is false for `par.get`** (used by the BCL form factors for the chiral logarithm factor,
/repo/flavio/physics/bdecays/formfactors/b_p/bcl.py:45): the parameter matters but is not returned. -/
theorem C52_get_not_tracked :
    let prog : Prog String Int Int := .get 0 "B->pi BCL chL" fun v => .ret (v.getD 1)
    getDependentParametersSM prog [("B->pi BCL chL", 3)] ["B->pi BCL chL"] = .ok [] ∧
    predictionPar prog [("B->pi BCL chL", 3)] = .ok 3 ∧
    predictionPar prog [("B->pi BCL chL", 4)] = .ok 4 := by
  decide +kernel

/-- **C52 is false for `conjugate_par`** (/repo/flavio/physics/common.py:12): it returns an ordinary
dictionary, so values read from it are not recorded. -/
theorem C52_conjugate_par_not_tracked :
    let prog : Prog String Int Int :=
      .comprehension 0 (fun k v => if k = "gamma" then -v else v) fun c => .read c "gamma" .ret
    getDependentParametersSM prog [("gamma", 3)] ["gamma"] = .ok [] ∧
    predictionPar prog [("gamma", 3)] = .ok (-3) ∧ predictionPar prog [("gamma", 4)] = .ok (-4) := by
  decide +kernel

/-- **Copying a modified `AwareDict` loses the modification** (attribute `d` is the original
dictionary), so the tracked execution computes something else than the real one. -/
theorem C52_copy_of_modified_reverts :
    let prog : Prog String Int Int :=
      .copy 0 fun c => .set c "s2w" 9 (.copy c fun c' => .read c' "s2w" .ret)
    (runAware [("s2w", 3)] prog [([("s2w", 3)], true)] []).1 = .ok 3 ∧
    predictionPar prog [("s2w", 3)] = .ok 9 := by
  decide +kernel

/-! ## C53 -/

variable {P R : Type} [DecidableEq P] [DecidableEq R]

theorem groupAppend_get? (v : Dict R (List P)) (c c' : R) (p : P) :
    ((groupAppend v c p).get? c').getD [] = (v.get? c').getD [] ++ if c' = c then [p] else [] := by
  unfold groupAppend
  cases hd : v.get? c with
  | none =>
    simp only [Dict.get?_set]
    by_cases h : c = c'
    · subst h; simp [hd]
    · simp [h, Ne.symm h]
  | some l =>
    simp only [Dict.get?_set]
    by_cases h : c = c'
    · subst h; simp [hd]
    · simp [h, Ne.symm h]

theorem groupAppend_keys (v : Dict R (List P)) (c c' : R) (p : P) :
    c' ∈ (groupAppend v c p).keys ↔ c' ∈ v.keys ∨ c' = c := by
  unfold groupAppend
  cases hd : v.get? c with
  | none => simp only [Dict.mem_keys_set]; tauto
  | some l => simp only [Dict.mem_keys_set]; tauto

theorem groupAppend_wf (v : Dict R (List P)) (wf : v.WF) (c : R) (p : P) :
    (groupAppend v c p).WF := by
  unfold groupAppend
  cases hd : v.get? c with
  | none => exact Dict.wf_set wf _ _
  | some l => exact Dict.wf_set wf _ _

theorem groups_spec (l : List (R × P)) (v : Dict R (List P)) (wf : v.WF) :
    (l.foldl (fun v e => groupAppend v e.1 e.2) v).WF ∧
    (∀ c, ((l.foldl (fun v e => groupAppend v e.1 e.2) v).get? c).getD [] =
      (v.get? c).getD [] ++ (l.filter fun e => decide (e.1 = c)).map Prod.snd) ∧
    ∀ c, c ∈ (l.foldl (fun v e => groupAppend v e.1 e.2) v).keys ↔ c ∈ v.keys ∨ c ∈ l.map Prod.fst := by
  induction l generalizing v with
  | nil => simp [wf]
  | cons e l ih =>
    rw [List.foldl_cons]
    obtain ⟨h1, h2, h3⟩ := ih (groupAppend v e.1 e.2) (groupAppend_wf v wf _ _)
    refine ⟨h1, fun c => ?_, fun c => ?_⟩
    · rw [h2, groupAppend_get?, List.append_assoc, List.filter_cons]
      congr 1
      by_cases hc : c = e.1
      · simp [hc]
      · have : ¬ e.1 = c := fun h => hc h.symm
        simp [hc, this]
    · rw [h3, groupAppend_keys, List.map_cons, List.mem_cons]
      tauto

/-- **C53.** The groups of `sm_error_budget` partition the dependent parameters: every dependent
parameter is in exactly one group (at one position), nothing else is in a group, no group is empty,
and two dependent parameters are in the same group iff the constraint in force on them is the same
distribution object. -/
theorem C53_groups_partition (h : List (Op P R)) (dep : List P) (hd : dep.Nodup)
    (hcon : ∀ p ∈ dep, Constrained h p) :
    ∃ gs, budgetGroups (run h) dep = .ok gs ∧ gs.flatten.Perm dep ∧ [] ∉ gs ∧
      ∀ p ∈ dep, ∀ q ∈ dep, ((∃ g ∈ gs, p ∈ g ∧ q ∈ g) ↔
        ∃ c i j, InForce h p i c ∧ InForce h q j c) := by
  obtain ⟨ps, hps⟩ : ∃ ps, dep.mapM (fun p => (run h).parameters.getItem p >>= fun e =>
      Except.ok (e.2, p)) = .ok ps := by
    apply mapM_ok_of_forall
    intro p hp
    obtain ⟨i, c, hf⟩ := hcon p hp
    refine ⟨(c, p), ?_⟩
    unfold Dict.getItem
    rw [(get?_run h p i c).2 hf]
    rfl
  have hall := (mapM_ok_iff _ _ _).1 hps
  have hfacts : ps.map Prod.snd = dep ∧ ∀ e ∈ ps, ∃ i, InForce h e.2 i e.1 := by
    clear hps hd hcon
    induction hall with
    | nil => simp
    | cons hpe _ ih =>
      obtain ⟨e', he', hpe⟩ := bind_eq_ok hpe
      cases hpe
      refine ⟨by simp [ih.1], ?_⟩
      intro e he
      rcases List.mem_cons.1 he with rfl | he
      · unfold Dict.getItem at he'
        split at he'
        · rename_i v hv
          cases he'
          exact ⟨_, (get?_run h _ _ _).1 hv⟩
        · cases he'
      · exact ih.2 e he
  obtain ⟨hsnd, hin⟩ := hfacts
  obtain ⟨wf, hget, hkeys⟩ := groups_spec ps [] Dict.wf_nil
  generalize hv : ps.foldl (fun v e => groupAppend v e.1 e.2) [] = v at wf hget hkeys
  have hgrp : ∀ c g, (c, g) ∈ v ↔ c ∈ v.keys ∧ g = (ps.filter fun e => decide (e.1 = c)).map Prod.snd := by
    intro c g
    have h1 := hget c
    constructor
    · intro hm
      have := Dict.get?_of_mem wf hm
      rw [this] at h1
      refine ⟨List.mem_map.2 ⟨_, hm, rfl⟩, by simpa using h1⟩
    · rintro ⟨hk, rfl⟩
      obtain ⟨g', hg'⟩ := Option.isSome_iff_exists.1 ((Dict.get?_isSome_iff v c).2 hk)
      rw [hg'] at h1
      simp only [Option.getD_some, Dict.get?_nil, Option.getD_none, List.nil_append] at h1
      rw [← h1]
      exact Dict.mem_of_get? hg'
  have hpsnd : ps.Nodup := List.Nodup.of_map Prod.snd (by rw [hsnd]; exact hd)
  have hmemg : ∀ c p, (p ∈ (ps.filter fun e => decide (e.1 = c)).map Prod.snd) ↔ (c, p) ∈ ps := by
    intro c p
    simp only [List.mem_map, List.mem_filter, decide_eq_true_eq, Prod.exists]
    constructor
    · rintro ⟨c', p', ⟨h1, rfl⟩, rfl⟩; exact h1
    · intro h1; exact ⟨c, p, ⟨h1, rfl⟩, rfl⟩
  have huniq : ∀ c c' p, (c, p) ∈ ps → (c', p) ∈ ps → c = c' := by
    intro c c' p h1 h2
    obtain ⟨i, hi⟩ := hin _ h1
    obtain ⟨j, hj⟩ := hin _ h2
    exact (inForce_unique hi hj).2
  refine ⟨v.map Prod.snd, ?_, ?_, ?_, ?_⟩
  · unfold budgetGroups
    rw [hps, ok_bind_eq, hv]
  · have hnd : (v.map Prod.snd).flatten.Nodup := by
      rw [List.nodup_flatten]
      refine ⟨?_, ?_⟩
      · intro g hg
        obtain ⟨⟨c, g'⟩, hm, rfl⟩ := List.mem_map.1 hg
        rw [((hgrp c g').1 hm).2]
        have : (ps.map Prod.snd).Nodup := by rw [hsnd]; exact hd
        exact this.sublist (List.Sublist.map _ List.filter_sublist)
      · rw [List.pairwise_map]
        have hk : v.Pairwise fun a b => a.1 ≠ b.1 := by
          unfold Dict.WF Dict.keys List.Nodup at wf
          rw [List.pairwise_map] at wf
          exact wf
        apply List.Pairwise.imp_of_mem _ hk
        intro a b ha hb hne
        rw [((hgrp a.1 a.2).1 ha).2, ((hgrp b.1 b.2).1 hb).2]
        intro x hx hy
        exact hne (huniq _ _ x ((hmemg _ _).1 hx) ((hmemg _ _).1 hy))
    rw [List.perm_ext_iff_of_nodup hnd hd]
    intro p
    simp only [List.mem_flatten, List.mem_map, Prod.exists, exists_eq_right]
    constructor
    · rintro ⟨g, ⟨c, hm⟩, hp⟩
      rw [((hgrp c g).1 hm).2, hmemg] at hp
      rw [← hsnd]
      exact List.mem_map.2 ⟨_, hp, rfl⟩
    · intro hp
      rw [← hsnd] at hp
      obtain ⟨⟨c, p'⟩, hm, rfl⟩ := List.mem_map.1 hp
      refine ⟨_, ⟨c, (hgrp c _).2 ⟨?_, rfl⟩⟩, (hmemg c _).2 hm⟩
      rw [hkeys]
      exact Or.inr (List.mem_map.2 ⟨_, hm, rfl⟩)
  · intro hnil
    obtain ⟨⟨c, g⟩, hm, hg⟩ := List.mem_map.1 hnil
    simp only at hg
    subst hg
    obtain ⟨hk, he⟩ := (hgrp c []).1 hm
    rw [hkeys] at hk
    rcases hk with hk | hk
    · simp at hk
    · obtain ⟨⟨c', p⟩, hm', rfl⟩ := List.mem_map.1 hk
      have := (hmemg c' p).2 hm'
      simp only at he this
      rw [← he] at this
      simp at this
  · intro p hp q hq
    constructor
    · rintro ⟨g, hg, h1, h2⟩
      obtain ⟨⟨c, g'⟩, hm, rfl⟩ := List.mem_map.1 hg
      rw [((hgrp c g').1 hm).2, hmemg] at h1 h2
      obtain ⟨i, hi⟩ := hin _ h1
      obtain ⟨j, hj⟩ := hin _ h2
      exact ⟨c, i, j, hi, hj⟩
    · rintro ⟨c, i, j, hi, hj⟩
      have hmp : ∀ r ∈ dep, ∀ k, InForce h r k c → (c, r) ∈ ps := by
        intro r hr k hk
        rw [← hsnd] at hr
        obtain ⟨⟨c', r'⟩, hm, rfl⟩ := List.mem_map.1 hr
        obtain ⟨k', hk'⟩ := hin _ hm
        rw [(inForce_unique hk hk').2]
        exact hm
      refine ⟨(ps.filter fun e => decide (e.1 = c)).map Prod.snd, List.mem_map.2 ⟨(c, _), ?_, rfl⟩,
        (hmemg c p).2 (hmp p hp i hi), (hmemg c q).2 (hmp q hq j hj)⟩
      rw [hgrp]
      refine ⟨?_, rfl⟩
      rw [hkeys]
      exact Or.inr (List.mem_map.2 ⟨_, hmp p hp i hi, rfl⟩)

theorem makeParRandom_spec (central random : Dict P V) (keys : List P)
    (hk : ∀ k ∈ keys, k ∈ random.keys) :
    ∃ d, makeParRandom central random keys = .ok d ∧
      ∀ k, d.get? k = if k ∈ keys then random.get? k else central.get? k := by
  unfold makeParRandom
  induction keys generalizing central with
  | nil => exact ⟨central, rfl, fun k => by simp⟩
  | cons x l ih =>
    obtain ⟨v, hv⟩ := Option.isSome_iff_exists.1 ((Dict.get?_isSome_iff random x).2 (hk x (by simp)))
    obtain ⟨d, h1, h2⟩ := ih (central.set x v) (fun k hk' => hk k (by simp [hk']))
    refine ⟨d, ?_, fun k => ?_⟩
    · rw [List.foldlM_cons]
      have : random.getItem x = .ok v := by unfold Dict.getItem; rw [hv]
      rw [this, ok_bind_eq, ok_bind_eq]
      exact h1
    · rw [h2, Dict.get?_set]
      by_cases hkl : k ∈ l
      · simp [hkl]
      · by_cases hkx : x = k
        · subst hkx; simp [hv]
        · have : k ≠ x := Ne.symm hkx
          simp [hkl, hkx, this]

/-- The `i`-th of the dictionaries at which one group of the error budget is evaluated. (Specification.) -/
def IsVaried (central : Dict P V) (group : List P) (random sample : Dict P V) : Prop :=
  ∀ k, sample.get? k = if k ∈ group then random.get? k else central.get? k

theorem budgetKey_inj {g g' : List P} (h : budgetKey g = budgetKey g') : g = g' := by
  unfold budgetKey at h
  split at h <;> split at h <;> simp_all

/-- **C53.** The error budget has one entry for each group, computed from the predictions at the
dictionaries in which exactly the parameters of the group have their random values and all other
parameters their central values. -/
theorem C53_budget_entries {E : Type} (err : List (Dict P V) → Except PyErr E) (g : List (Dict P V) → E)
    (herr : ∀ s, err s = .ok (g s)) (central : Dict P V) (randoms : List (Dict P V))
    (groups : List (List P)) (hgr : groups.Nodup)
    (hk : ∀ gr ∈ groups, ∀ k ∈ gr, ∀ r ∈ randoms, k ∈ r.keys) :
    ∃ d, budgetErrors err central randoms groups = .ok d ∧
      d.keys = groups.map budgetKey ∧
      ∀ gr ∈ groups, ∃ samples, List.Forall₂ (IsVaried central gr) randoms samples ∧
        d.get? (budgetKey gr) = some (g samples) := by
  unfold budgetErrors
  suffices H : ∀ (l : List (List P)) (d0 : Dict (BudgetKey P) E), l.Nodup → (∀ gr ∈ l, gr ∈ groups) →
      (∀ gr ∈ l, budgetKey gr ∉ d0.keys) →
      ∃ d, l.foldlM (fun d g => randoms.mapM (fun r => makeParRandom central r g) >>= fun samples =>
          err samples >>= fun e => Except.ok (d.set (budgetKey g) e)) d0 = .ok d ∧
        d.keys = d0.keys ++ l.map budgetKey ∧
        (∀ k ∈ d0.keys, d.get? k = d0.get? k) ∧
        ∀ gr ∈ l, ∃ samples, List.Forall₂ (IsVaried central gr) randoms samples ∧
          d.get? (budgetKey gr) = some (g samples) by
    obtain ⟨d, h1, h2, -, h3⟩ := H groups [] hgr (fun _ h => h) (by simp)
    exact ⟨d, h1, by simpa using h2, h3⟩
  intro l
  induction l with
  | nil => intro d0 _ _ _; exact ⟨d0, rfl, by simp, by simp, by simp⟩
  | cons gr l ih =>
    intro d0 hn hl hnot
    obtain ⟨samples, hs⟩ : ∃ s, randoms.mapM (fun r => makeParRandom central r gr) = .ok s := by
      apply mapM_ok_of_forall
      intro r hr
      obtain ⟨d, hd, -⟩ := makeParRandom_spec central r gr
        (fun k hk' => hk gr (hl gr (by simp)) k hk' r hr)
      exact ⟨d, hd⟩
    have hf2 : List.Forall₂ (IsVaried central gr) randoms samples := by
      have hall := (mapM_ok_iff _ _ _).1 hs
      have hkk : ∀ r ∈ randoms, ∀ k ∈ gr, k ∈ r.keys :=
        fun r hr k hk' => hk gr (hl gr (by simp)) k hk' r hr
      clear hs hk ih
      induction hall with
      | nil => exact .nil
      | @cons r s _ _ hrs _ ih' =>
        refine .cons ?_ (ih' (fun r hr => hkk r (by simp [hr])))
        obtain ⟨d, hd, hspec⟩ := makeParRandom_spec central r gr (hkk r (by simp))
        have heq : Except.ok d = Except.ok s := hd.symm.trans hrs
        cases heq
        exact hspec
    have hkeys : (d0.set (budgetKey gr) (g samples)).keys = d0.keys ++ [budgetKey gr] := by
      rw [Dict.set_of_not_mem (hnot gr (by simp))]
      simp [Dict.keys]
    obtain ⟨d, h1, h2, h3, h4⟩ := ih (d0.set (budgetKey gr) (g samples))
      (List.nodup_cons.1 hn).2 (fun x hx => hl x (by simp [hx])) (by
        intro x hx hmem
        rw [hkeys, List.mem_append, List.mem_singleton] at hmem
        rcases hmem with hmem | hmem
        · exact hnot x (by simp [hx]) hmem
        · rw [budgetKey_inj hmem] at hx
          exact (List.nodup_cons.1 hn).1 hx)
    refine ⟨d, ?_, ?_, ?_, ?_⟩
    · rw [List.foldlM_cons, hs, ok_bind_eq, herr, ok_bind_eq, ok_bind_eq]
      exact h1
    · rw [h2, hkeys]; simp
    · intro k hk'
      rw [h3 k (by rw [hkeys]; simp [hk']), Dict.get?_set_ne]
      rintro rfl
      exact hnot gr (by simp) hk'
    · intro x hx
      rcases List.mem_cons.1 hx with rfl | hx
      · refine ⟨samples, hf2, ?_⟩
        rw [h3 _ (by rw [hkeys]; simp), Dict.get?_set_self]
      · exact h4 x hx

example : budgetGroups (run [.add ["a", "b", "c"] 1, .add ["d"] 2, .add ["c"] (3 : Nat)])
    ["c", "b", "d", "a"] = .ok [["c"], ["b", "a"], ["d"]] ∧
    makeParRandom [("a", 1), ("b", 2), ("c", 3)] [("a", 10), ("b", 20), ("c", 30)] ["b", "a"] =
      .ok [("a", 10), ("b", 20), ("c", 3)] := by decide +kernel

/-! ## C54 -/

variable {X Y : Type}

theorem poolFold_get? (f : X → Except PyErr Y) (xs : List X) (sched : List Nat)
    (res : List (Option (Except PyErr Y))) (hlen : res.length = xs.length) :
    (sched.foldl (poolStep f xs) res).length = xs.length ∧
    ∀ (i : Nat) (x : X), xs[i]? = some x → (i ∈ sched ∨ res[i]? = some (some (f x))) →
      (sched.foldl (poolStep f xs) res)[i]? = some (some (f x)) := by
  induction sched generalizing res with
  | nil =>
    refine ⟨hlen, fun i x hx h => ?_⟩
    rcases h with h | h
    · simp at h
    · exact h
  | cons j sched ih =>
    rw [List.foldl_cons]
    have hlen' : (poolStep f xs res j).length = xs.length := by
      unfold poolStep
      split
      · exact hlen
      · rw [List.length_set, hlen]
    obtain ⟨h1, h2⟩ := ih _ hlen'
    refine ⟨h1, fun i x hx h => h2 i x hx ?_⟩
    by_cases hij : i = j
    · subst hij
      right
      unfold poolStep
      rw [hx]
      rw [List.getElem?_set_self (by rw [hlen]; exact (List.getElem?_eq_some_iff.1 hx).1)]
    · rcases h with h | h
      · rcases List.mem_cons.1 h with h | h
        · exact absurd h hij
        · exact Or.inl h
      · right
        unfold poolStep
        split
        · exact h
        · rw [List.getElem?_set_ne (Ne.symm hij)]; exact h

/-- **C54.** If the serial evaluation succeeds, the pool returns the same list for every order in
which the workers complete the tasks (tasks may even be done repeatedly). -/
theorem C54_pool_eq_serial (f : X → Except PyErr Y) (xs : List X) (ys : List Y)
    (h : serialMap f xs = .ok ys) (sched : List Nat) (hs : ∀ i, i < xs.length → i ∈ sched) :
    poolMap f xs sched = .ok ys := by
  have hall := (mapM_ok_iff f xs ys).1 h
  have hok : ∀ x ∈ xs, ∃ y, f x = .ok y := by
    intro x hx
    obtain ⟨y, -, hy⟩ := forall₂_mem_left hall hx
    exact ⟨y, hy⟩
  unfold poolMap
  have hfind : (sched.filterMap fun i => xs[i]?).findSome? (fun x => taskError (f x)) = none := by
    rw [List.findSome?_eq_none_iff]
    intro x hx
    obtain ⟨i, -, hi⟩ := List.mem_filterMap.1 hx
    obtain ⟨y, hy⟩ := hok x (List.mem_of_getElem? hi)
    rw [hy]; rfl
  rw [hfind]
  obtain ⟨h1, h2⟩ := poolFold_get? f xs sched (List.replicate xs.length none) (by simp)
  have hres : sched.foldl (poolStep f xs) (List.replicate xs.length none) =
      xs.map fun x => some (f x) := by
    apply List.ext_getElem?
    intro i
    cases hx : xs[i]? with
    | none =>
      rw [List.getElem?_map, hx, Option.map_none]
      rw [List.getElem?_eq_none_iff] at hx ⊢
      rw [h1]; exact hx
    | some x =>
      rw [List.getElem?_map, hx]
      exact h2 i x hx (Or.inl (hs i (List.getElem?_eq_some_iff.1 hx).1))
  show List.mapM slotValue (List.foldl (poolStep f xs) _ sched) = _
  rw [hres, List.mapM_map]
  exact h

/-- **C54.** If the serial evaluation raises, so does the pool, for every completion order that
reaches one of the failing tasks. -/
theorem C54_pool_raises (f : X → Except PyErr Y) (xs : List X) (h : raises (serialMap f xs))
    (sched : List Nat) (hs : ∀ i, i < xs.length → i ∈ sched) : raises (poolMap f xs sched) := by
  obtain ⟨e, he⟩ := h
  have : ∃ x ∈ xs, ∃ e, f x = .error e := by
    by_contra hcon
    push Not at hcon
    obtain ⟨r, hr⟩ := mapM_ok_of_forall f xs (fun x hx => by
      cases hf : f x with
      | error e => exact absurd hf (hcon x hx e)
      | ok y => exact ⟨y, rfl⟩)
    unfold serialMap at he
    rw [hr] at he
    cases he
  obtain ⟨x, hx, e', hfx⟩ := this
  obtain ⟨i, hi⟩ := List.mem_iff_getElem?.1 hx
  have hmem : x ∈ sched.filterMap fun i => xs[i]? :=
    List.mem_filterMap.2 ⟨i, hs i (List.getElem?_eq_some_iff.1 hi).1, hi⟩
  unfold poolMap
  cases hfind : (sched.filterMap fun i => xs[i]?).findSome? (fun x => taskError (f x)) with
  | some e => exact ⟨e, rfl⟩
  | none =>
    rw [List.findSome?_eq_none_iff] at hfind
    have := hfind x hmem
    rw [hfx] at this
    cases this

/-- **C54.** The conversion to keyword arguments in the parallel branch of `np_uncertainty` does not
change the call: if the observable's declared arguments are the names of the prediction function's
arguments and the serial call binds its positional and keyword arguments to the values `vs`, then the
parallel call binds to the same values. -/
theorem C54_kwargs_equivalent (names : List String) (hn : names.Nodup) (args : List V)
    (kwargs : Dict String V) (vs : List V) (h : bindArgs names args kwargs = .ok vs) :
    ∃ d, argsToKwargs (some names) args kwargs = .ok d ∧ bindArgs names [] d = .ok vs := by
  unfold bindArgs at h
  split at h
  · cases h
  rename_i hlen
  split at h
  · cases h
  rename_i hkw
  obtain ⟨ws, hws, h⟩ := bind_eq_ok h
  cases h
  -- the fold
  have hfold : ∀ (l : List V) (m : Nat) (d : Dict String V), m + l.length ≤ names.length →
      ∃ d', (l.zipIdx m).foldlM (kwargStep names) d = .ok d' ∧
        (∀ (i : Nat) (n : String), names[i]? = some n →
          d'.get? n = if m ≤ i ∧ i < m + l.length then l[i - m]? else d.get? n) ∧
        ∀ n, n ∈ d'.keys → n ∈ d.keys ∨ n ∈ names := by
    intro l
    induction l with
    | nil =>
      intro m d _
      refine ⟨d, rfl, fun i n _ => ?_, fun n h => Or.inl h⟩
      rw [if_neg]
      simp only [List.length_nil, Nat.add_zero, not_and, not_lt]
      exact fun h => h
    | cons v l ih =>
      intro m d hm
      simp only [List.length_cons] at hm
      have hmlt : m < names.length := by omega
      obtain ⟨d', h1, h2, h3⟩ := ih (m + 1) (d.set names[m] v) (by omega)
      refine ⟨d', ?_, fun i n hi => ?_, fun n hn' => ?_⟩
      · have hst : kwargStep names d (v, m) = .ok (d.set names[m] v) := by
          unfold kwargStep
          rw [List.getElem?_eq_getElem hmlt]
        rw [List.zipIdx_cons, List.foldlM_cons, hst, ok_bind_eq]
        exact h1
      · rw [h2 i n hi]
        by_cases him : i = m
        · subst him
          rw [if_neg (by omega), if_pos (by simp only [List.length_cons]; omega)]
          rw [List.getElem?_eq_getElem hmlt] at hi
          simp only [Option.some.injEq] at hi
          rw [hi, Dict.get?_set_self]
          simp
        · by_cases hc : m + 1 ≤ i ∧ i < m + 1 + l.length
          · rw [if_pos hc, if_pos (by simp only [List.length_cons]; omega)]
            have : i - m = (i - (m + 1)) + 1 := by omega
            rw [this, List.getElem?_cons_succ]
          · rw [if_neg hc, if_neg (by simp only [List.length_cons]; omega), Dict.get?_set_ne]
            intro he
            have hi' := List.getElem?_eq_some_iff.1 hi
            obtain ⟨hilt, hie⟩ := hi'
            have := (hn.getElem_inj_iff (hi := hmlt) (hj := hilt)).1 (by rw [he, hie])
            exact him this.symm
      · rcases h3 n hn' with h | h
        · rw [Dict.mem_keys_set] at h
          rcases h with h | h
          · right; rw [h]; exact List.getElem_mem hmlt
          · exact Or.inl h
        · exact Or.inr h
  obtain ⟨d, hd1, hd2, hd3⟩ := hfold args 0 kwargs (by omega)
  refine ⟨d, hd1, ?_⟩
  simp only [Nat.zero_le, true_and, Nat.zero_add, Nat.sub_zero] at hd2
  have hkw' : ∀ k ∈ kwargs.keys, k ∈ names.drop args.length := by
    intro k hk
    simp only [List.any_eq_true, decide_eq_true_eq, not_exists, not_and, not_not] at hkw
    exact hkw k hk
  unfold bindArgs
  simp only [List.length_nil, Nat.not_lt_zero, if_false, List.drop_zero]
  rw [if_neg]
  · have hmap : names.mapM (kwLookup d) = .ok (args ++ ws) := by
      have hws' := (mapM_ok_iff _ _ _).1 hws
      rw [mapM_ok_iff, List.forall₂_iff_get]
      have hlw : ws.length = names.length - args.length := by
        rw [← hws'.length_eq, List.length_drop]
      refine ⟨by rw [List.length_append, hlw]; omega, ?_⟩
      intro i hi hi'
      simp only [List.get_eq_getElem]
      have hg := hd2 i names[i] (List.getElem?_eq_getElem hi)
      by_cases hia : i < args.length
      · rw [if_pos hia] at hg
        unfold kwLookup
        rw [hg, List.getElem?_eq_getElem hia, List.getElem_append_left hia]
      · rw [if_neg hia] at hg
        have hfa := (List.forall₂_iff_get.1 hws').2 (i - args.length)
          (by rw [List.length_drop]; omega) (by rw [hlw]; omega)
        simp only [List.get_eq_getElem, List.getElem_drop] at hfa
        have hidx : args.length + (i - args.length) = i := by omega
        simp only [hidx] at hfa
        unfold kwLookup at hfa ⊢
        rw [hg, List.getElem_append_right (by omega)]
        exact hfa
    rw [hmap]
    rfl
  · simp only [List.any_eq_true, decide_eq_true_eq, not_exists, not_and, not_not]
    intro k hk
    rcases hd3 k hk with h | h
    · exact List.mem_of_mem_drop (hkw' k h)
    · exact h

/-- **C54, difference for invalid calls**: an argument given both by position and by keyword is a
`TypeError` in the serial branch, but silently accepted in the parallel branch. -/
theorem C54_duplicate_argument_accepted_in_parallel :
    bindArgs ["q2"] [1] [("q2", 2)] = Except.error (ε := PyErr) (α := List Int) .typeError ∧
    argsToKwargs (some ["q2"]) [1] [("q2", 2)] = .ok [("q2", (1 : Int))] ∧
    bindArgs ["q2"] [] [("q2", (1 : Int))] = .ok [1] := by decide +kernel

example : poolMap (fun x : Nat => if x = 9 then .error .valueError else .ok (x * x)) [1, 2, 3]
    [2, 0, 1] = .ok [1, 4, 9] ∧
    serialMap (fun x : Nat => if x = 9 then .error .valueError else .ok (x * x)) [1, 2, 3] =
      .ok [1, 4, 9] ∧
    bindArgs ["a", "b", "c"] [1, 2] [("c", (3 : Int))] = .ok [1, 2, 3] ∧
    argsToKwargs (some ["a", "b", "c"]) [1, 2] [("c", (3 : Int))] =
      .ok [("c", 3), ("a", 1), ("b", 2)] := by decide +kernel

/-! ## C55 -/

theorem get?_mapM_slice (d : Dict P (List V)) (wf : d.WF) (i : Nat) (r : Dict P V)
    (h : d.mapM (fun e => match e.2[i]? with
      | some v => Except.ok (e.1, v)
      | none => Except.error PyErr.indexError) = .ok r) (k : P) :
    r.get? k = (d.get? k).bind fun l => l[i]? := by
  have hall := (mapM_ok_iff _ _ _).1 h
  clear h wf
  induction hall with
  | nil => rfl
  | @cons e r' _ _ he _ ih =>
    obtain ⟨q, l⟩ := e
    simp only at he
    cases hl : l[i]? with
    | none => rw [hl] at he; cases he
    | some v =>
      rw [hl] at he
      cases he
      rw [Dict.get?_cons, Dict.get?_cons, ih]
      by_cases hq : q = k
      · simp [hq, hl]
      · simp [hq]

theorem slices_spec (N : Nat) (d : Dict P (List V)) (wf : d.WF) (hl : ∀ e ∈ d, e.2.length = N) :
    ∃ r, slices N d = .ok r ∧ r.length = N ∧ ∀ (i : Nat) (s : Dict P V), r[i]? = some s →
      ∀ k, s.get? k = (d.get? k).bind fun l => l[i]? := by
  unfold slices
  obtain ⟨r, hr⟩ : ∃ r, (List.range N).mapM (fun i => d.mapM fun e => match e.2[i]? with
    | some v => Except.ok (e.1, v)
    | none => Except.error PyErr.indexError) = .ok r := by
    apply mapM_ok_of_forall
    intro i hi
    rw [List.mem_range] at hi
    apply mapM_ok_of_forall
    intro e he
    have : i < e.2.length := by rw [hl e he]; exact hi
    rw [List.getElem?_eq_getElem this]
    exact ⟨_, rfl⟩
  have hall := (mapM_ok_iff _ _ _).1 hr
  refine ⟨r, hr, by rw [← hall.length_eq, List.length_range], ?_⟩
  intro i s hs k
  obtain ⟨hi, rfl⟩ := List.getElem?_eq_some_iff.1 hs
  have h2 := (List.forall₂_iff_get.1 hall).2 i (by rw [hall.length_eq]; exact hi) hi
  simp only [List.get_eq_getElem, List.getElem_range] at h2
  exact get?_mapM_slice d wf i _ h2 k

/-- **C55.** With a list `par_vary`, the `i`-th dictionary at which `sm_covariance` evaluates the
predictions has, for every parameter, the `i`-th random value if the parameter is listed and the
central value otherwise; there are `N` of them.  With `par_vary='all'` all parameters have their
random values. -/
theorem C55_selective_variation (N : Nat) (vary : Option (List P)) (random : Dict P (List V))
    (central : Dict P V) (wfr : random.WF) (wfc : central.WF)
    (hkeys : ∀ k, k ∈ random.keys ↔ k ∈ central.keys) (hlen : ∀ e ∈ random, e.2.length = N) :
    ∃ r, covarianceSamples N vary random central = .ok r ∧ r.length = N ∧
      ∀ (i : Nat) (s : Dict P V), r[i]? = some s → ∀ k, s.get? k =
        if (∀ l, vary = some l → k ∈ l) then (random.get? k).bind fun l => l[i]?
        else central.get? k := by
  cases vary with
  | none =>
    obtain ⟨r, h1, h2, h3⟩ := slices_spec N random wfr hlen
    exact ⟨r, h1, h2, fun i s hs k => by rw [h3 i s hs k, if_pos (by simp)]⟩
  | some vs =>
    have hget : ∀ k, (parRandomSome N vs random central).get? k =
        if k ∈ vs then random.get? k else (central.get? k).map fun v => List.replicate N v := by
      intro k
      unfold parRandomSome
      simp only
      rw [Dict.foldl_set_get?]
      have hrev : Dict.get? (List.filter (fun e => decide (e.1 ∈ vs)) random).reverse k =
          if k ∈ vs then random.get? k else none := by
        have wff : Dict.WF (List.filter (fun e => decide (e.1 ∈ vs)) random) := by
          unfold Dict.WF Dict.keys at wfr ⊢
          exact wfr.sublist (List.Sublist.map _ List.filter_sublist)
        have wfrev : Dict.WF (List.filter (fun e => decide (e.1 ∈ vs)) random).reverse := by
          unfold Dict.WF Dict.keys at wff ⊢
          rw [List.map_reverse]
          exact List.nodup_reverse.2 wff
        cases hg : Dict.get? (List.filter (fun e => decide (e.1 ∈ vs)) random).reverse k with
        | none =>
          by_cases hk : k ∈ vs
          · rw [if_pos hk]
            rw [Dict.get?_eq_none_iff] at hg
            symm
            rw [Dict.get?_eq_none_iff]
            intro hkr
            apply hg
            unfold Dict.keys at hkr ⊢
            obtain ⟨e, he, rfl⟩ := List.mem_map.1 hkr
            exact List.mem_map.2 ⟨e, by simp [he, hk], rfl⟩
          · rw [if_neg hk]
        | some l =>
          have hm := Dict.mem_of_get? hg
          rw [List.mem_reverse, List.mem_filter, decide_eq_true_eq] at hm
          rw [if_pos hm.2, Dict.get?_of_mem wfr hm.1]
      rw [hrev]
      by_cases hk : k ∈ vs
      · rw [if_pos hk, if_pos hk]
        cases hr : random.get? k with
        | some l => rfl
        | none =>
          have hkc : k ∉ central.keys := by
            rw [← hkeys, ← Dict.get?_eq_none_iff]; exact hr
          show Dict.get? _ k = none
          rw [Dict.get?_eq_none_iff]
          intro hmem
          apply hkc
          unfold Dict.keys at hmem ⊢
          rw [List.map_map] at hmem
          obtain ⟨e, he, rfl⟩ := List.mem_map.1 hmem
          exact List.mem_map.2 ⟨e, (List.mem_filter.1 he).1, rfl⟩
      · rw [if_neg hk, if_neg hk]
        show Dict.get? _ k = _
        clear hrev wfc hkeys
        induction central with
        | nil => rfl
        | cons e c ih =>
          obtain ⟨q, v⟩ := e
          rw [Dict.get?_cons, List.filter_cons]
          by_cases hq : q = k
          · subst hq
            simp [hk, Dict.get?_cons]
          · simp only [hq, if_false]
            rw [← ih]
            split
            · rw [List.map_cons, Dict.get?_cons]
              simp [hq]
            · rfl
    have wfp : (parRandomSome N vs random central).WF := by
      unfold parRandomSome
      apply Dict.wf_foldl_set
      unfold Dict.WF Dict.keys at wfc ⊢
      rw [List.map_map]
      exact wfc.sublist (List.Sublist.map _ List.filter_sublist)
    obtain ⟨r, h1, h2, h3⟩ := slices_spec N (parRandomSome N vs random central) wfp (by
      intro e he
      have hg := Dict.get?_of_mem wfp (k := e.1) (v := e.2) he
      rw [hget] at hg
      split at hg
      · exact hlen _ (Dict.mem_of_get? hg)
      · cases hc : central.get? e.1 with
        | none => rw [hc] at hg; cases hg
        | some v =>
          rw [hc] at hg
          simp only [Option.map_some, Option.some.injEq] at hg
          rw [← hg, List.length_replicate])
    refine ⟨r, h1, h2, fun i s hs k => ?_⟩
    rw [h3 i s hs k, hget]
    by_cases hk : k ∈ vs
    · rw [if_pos hk, if_pos (by rintro l ⟨rfl⟩; exact hk)]
    · rw [if_neg hk, if_neg (by intro hall; exact hk (hall vs rfl))]
      have hi : i < N := by rw [← h2]; exact (List.getElem?_eq_some_iff.1 hs).1
      cases central.get? k with
      | none => rfl
      | some v => simp [List.getElem?_replicate, hi]

example : covarianceSamples 2 (some ["b"]) [("a", [10, 11]), ("b", [20, 21])] [("a", 1), ("b", 2)] =
    .ok [[("a", 1), ("b", 20)], [("a", 1), ("b", 21)]] ∧
    covarianceSamples 2 none [("a", [10, 11]), ("b", [20, 21])] [("a", 1), ("b", 2)] =
    .ok [[("a", 10), ("b", 20)], [("a", 11), ("b", 21)]] := by decide +kernel

/-! ## C56 -/

/-- The measurement takes part in the combination. (Specification.) -/
def Combined (inc : Option (List String)) (obs : P) (n : String) (h : List (Op P R)) : Prop :=
  ¬ PseudoName n ∧ (∀ l, inc = some l → n ∈ l) ∧ Constrained h obs

/-- The univariate distribution of `obs` according to a constraint `c` with `obs` at position `i`:
the distribution itself if it is one-dimensional, otherwise its reduction excluding all positions
but `i`. (Specification.) -/
def IsMarginal {D : Type} (cv : R → Central V) (obj : R → D)
    (reduce : R → List Nat → Except PyErr D) (i : Nat) (c : R) (d : D) : Prop :=
  ((∃ v, cv c = .scalar v) ∧ d = obj c) ∨
  (∃ vs excl, (cv c = .list vs ∨ cv c = .array vs) ∧ (∀ j, j ∈ excl ↔ j < vs.length ∧ j ≠ i) ∧
    excl.Pairwise (· < ·) ∧ reduce c excl = .ok d)

theorem oneDim_ok_iff {D : Type} (cv : R → Central V) (obj : R → D)
    (reduce : R → List Nat → Except PyErr D) (i : Nat) (c : R) (d : D) :
    oneDim cv obj reduce (i, c) = .ok d ↔ IsMarginal cv obj reduce i c d := by
  have key : ∀ vs : List V, (reduce c ((List.range vs.length).filter fun j => decide (j ≠ i)) = .ok d ↔
      ∃ excl, (∀ j, j ∈ excl ↔ j < vs.length ∧ j ≠ i) ∧ excl.Pairwise (· < ·) ∧
        reduce c excl = .ok d) := by
    intro vs
    constructor
    · intro h
      refine ⟨_, ?_, ?_, h⟩
      · intro j; simp [List.mem_filter]
      · exact List.Pairwise.filter _ List.pairwise_lt_range
    · rintro ⟨excl, h1, h2, h3⟩
      have : excl = (List.range vs.length).filter fun j => decide (j ≠ i) := by
        apply List.Perm.eq_of_pairwise (le := (· < ·))
        · intro a b _ _ h h'; exact absurd h (by omega)
        · exact h2
        · exact List.Pairwise.filter _ List.pairwise_lt_range
        · rw [List.perm_ext_iff_of_nodup (h2.imp (fun h => Nat.ne_of_lt h))
            (List.nodup_range.filter _)]
          intro j
          rw [h1]
          simp [List.mem_filter]
      rw [← this]; exact h3
  unfold oneDim IsMarginal
  cases hcv : cv c with
  | scalar v => simp [isScalarCentral, eq_comm]
  | list vs =>
    simp only [isScalarCentral, Bool.false_eq_true, if_false, centralLen]
    rw [key]
    simp
  | array vs =>
    simp only [isScalarCentral, Bool.false_eq_true, if_false, centralLen]
    rw [key]
    simp

theorem combineUses_iff (inc : Option (List String)) (obs : P) (n : String) (h : List (Op P R)) :
    combineUses inc obs (n, run h) = true ↔ Combined inc obs n h := by
  unfold combineUses Combined
  rw [← isPseudo_iff, ← mem_keys_run]
  simp only [Bool.and_eq_true, Bool.not_eq_true', decide_eq_true_eq, Bool.not_eq_true]
  rw [and_assoc]
  refine and_congr_right fun _ => and_congr ?_ Iff.rfl
  cases inc <;> simp

open Classical in
/-- **C56.** `combine_measurements(obs)` builds, in registry order, one univariate distribution for
each registered, included measurement that constrains `obs` and is not a pseudo-measurement, and then:
raises `ValueError` if there is none, returns the distribution if there is one, otherwise returns the
combination of all of them. -/
theorem C56_combine {D : Type} (cv : R → Central V) (obj : R → D)
    (reduce : R → List Nat → Except PyErr D) (combine : List D → Except PyErr D) (H : Hist P R)
    (obs : P) (inc : Option (List String)) (ds : List D)
    (hds : List.Forall₂ (fun e d => ∃ i c, InForce e.2 obs i c ∧ IsMarginal cv obj reduce i c d)
      (H.filter fun e => decide (Combined inc obs e.1 e.2)) ds) :
    (ds = [] → combineMeasurements cv obj reduce combine (objs H) obs inc = .error .valueError) ∧
    (∀ d, ds = [d] → combineMeasurements cv obj reduce combine (objs H) obs inc = .ok d) ∧
    (2 ≤ ds.length →
      combineMeasurements cv obj reduce combine (objs H) obs inc = combine ds) := by
  have hlist : combineList cv obj reduce (objs H) obs inc = .ok ds := by
    unfold combineList
    have hfil : (objs H).filter (combineUses inc obs) =
        (H.filter fun e => decide (Combined inc obs e.1 e.2)).map fun e => (e.1, run e.2) := by
      unfold objs
      rw [List.filter_map]
      congr 1
      apply List.filter_congr
      intro e _
      rw [Bool.eq_iff_iff, decide_eq_true_eq]
      exact combineUses_iff inc obs e.1 e.2
    rw [hfil, List.mapM_map, mapM_ok_iff]
    apply hds.imp
    rintro e d ⟨i, c, hf, hm⟩
    simp only [Function.comp_apply]
    unfold Dict.getItem
    rw [(get?_run e.2 obs i c).2 hf, ok_bind_eq]
    exact (oneDim_ok_iff cv obj reduce i c d).2 hm
  unfold combineMeasurements
  rw [hlist, ok_bind_eq]
  match ds with
  | [] => simp
  | [d] => simp
  | a :: b :: l => simp

open Classical in
/-- **C56.** If the reduction of one of these distributions fails, the call raises. -/
theorem C56_raises {D : Type} (cv : R → Central V) (obj : R → D)
    (reduce : R → List Nat → Except PyErr D) (combine : List D → Except PyErr D) (H : Hist P R)
    (obs : P) (inc : Option (List String)) (n : String) (h : List (Op P R)) (hm : (n, h) ∈ H)
    (hc : Combined inc obs n h) (i : Nat) (c : R) (hf : InForce h obs i c)
    (hbad : ∀ d, ¬ IsMarginal cv obj reduce i c d) :
    raises (combineMeasurements cv obj reduce combine (objs H) obs inc) := by
  have : raises (combineList cv obj reduce (objs H) obs inc) := by
    unfold combineList
    apply mapM_raises _ _ (a := (n, run h))
    · rw [List.mem_filter]
      exact ⟨List.mem_map.2 ⟨_, hm, rfl⟩, (combineUses_iff inc obs n h).2 hc⟩
    · unfold Dict.getItem
      rw [(get?_run h obs i c).2 hf, ok_bind_eq]
      cases ho : oneDim cv obj reduce (i, c) with
      | error e => exact ⟨e, rfl⟩
      | ok d => exact absurd ((oneDim_ok_iff cv obj reduce i c d).1 ho) (hbad d)
  obtain ⟨e, he⟩ := this
  unfold combineMeasurements
  rw [he]
  exact ⟨e, rfl⟩

/-- **C51/C56.** `make_measurement` of a `FastLikelihood` does not change any combination. -/
theorem C51_combine_ignores_pseudo {D : Type} (cv : R → Central V) (obj : R → D)
    (reduce : R → List Nat → Except PyErr D) (combine : List D → Except PyErr D)
    (ord : List String → List String) (reg : Reg P R) (fl : Fast P) (c : R) (obs : P)
    (inc : Option (List String)) :
    combineMeasurements cv obj reduce combine (makeMeasurement ord reg fl c).1 obs inc =
      combineMeasurements cv obj reduce combine reg obs inc := by
  have hps : isPseudo (pseudoName fl.name) = true := by
    rw [isPseudo_iff]
    refine ⟨" for FastLikelihood instance: ".toList ++ fl.name.toList, ?_, Or.inr rfl⟩
    unfold pseudoName
    rw [String.toList_append, ← List.append_assoc]
    rfl
  have : ((makeMeasurement ord reg fl c).1).filter (combineUses inc obs) =
      reg.filter (combineUses inc obs) := by
    show (reg.set (pseudoName fl.name) _).filter _ = _
    generalize addConstraint CState.init fl.observables c = s
    induction reg with
    | nil => simp [Dict.set, combineUses, hps]
    | cons e reg ih =>
      obtain ⟨k, v⟩ := e
      unfold Dict.set
      by_cases hk : k = pseudoName fl.name
      · subst hk
        rw [if_pos rfl]
        simp [List.filter_cons, combineUses, hps]
      · rw [if_neg hk, List.filter_cons, List.filter_cons, ih]
  unfold combineMeasurements combineList
  rw [this]

example : combineMeasurements (D := String)
    (fun c => if c = 1 then Central.list [(5 : Int), 6, 7] else .scalar 3)
    (fun c => toString c) (fun c ex => .ok (toString c ++ toString ex))
    (fun l => .ok (toString l))
    (objs [("m1", [.add ["a", "o", "b"] (1 : Nat)]), ("Pseudo-measurement x", [.add ["o"] 2]),
      ("m3", [.add ["o"] 3]), ("m4", [.add ["z"] 4]), ("m5", [.add ["o"] 5])]) "o"
    (some ["m1", "m3", "m4", "Pseudo-measurement x"]) = .ok "[1[0, 2], 3]" := by decide +kernel

end Verif.Functions
