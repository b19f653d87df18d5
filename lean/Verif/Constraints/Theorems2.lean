import Verif.Constraints.Theorems
import Verif.Py.ExceptLemmas

/-!
# Property theorems about `Constraints` (C07–C12): random values, YAML, copy, set_constraint, errors
-/
set_option linter.unusedSectionVars false
set_option linter.unusedSimpArgs false
namespace Verif.Constraints
open Verif.Py

variable {P R V L : Type} [DecidableEq P] [DecidableEq R]

/-! ## C06, non-vacuity -/

example : Proper exHist ∧ (∀ a b : Nat, a + 100 = b + 100 → a = b) ∧
    Proper (exHist.map fun | .add ps c => .add ps (c + 100) | .remove p => .remove p) :=
  ⟨⟨by decide, by decide⟩, by omega, ⟨by decide, by decide⟩⟩

/-! ## C07 -/

theorem pick_ok_iff (size : Option Nat) (num : Nat) (a : Arr V) (v : RVal V)
    (hv : ∀ nc rows, a = .mat nc rows → size ≠ none) :
    pick size num a = .ok v ↔ IsComponent size a num v := by
  constructor
  · intro h
    cases size with
    | none =>
      cases a with
      | scalar x =>
        simp only [pick] at h; split at h
        · cases h; subst_vars; exact .scalar x
        · simp at h
      | zero x =>
        simp only [pick] at h; split at h
        · cases h; subst_vars; exact .zero x
        · simp at h
      | vec vs =>
        simp only [pick] at h; split at h
        · rename_i x hx; cases h; exact .entry vs num x hx
        · simp at h
      | mat nc rows => exact absurd rfl (hv nc rows rfl)
    | some n =>
      cases a with
      | scalar x => simp [pick] at h
      | zero x => simp [pick] at h
      | vec vs =>
        simp only [pick] at h; split at h
        · rename_i hc; obtain ⟨rfl, rfl⟩ := hc; cases h; exact .whole vs
        · simp at h
      | mat nc rows =>
        simp only [pick] at h
        split at h
        · rename_i hn; subst hn
          split at h
          · rename_i hlt
            split at h
            · rename_i col hcol
              cases h
              have aux : ∀ (rows : List (List V)) (col : List V),
                  (rows.mapM fun r => r[num]?) = some col →
                  col.length = rows.length ∧
                  ∀ (k : Nat) (r : List V), rows[k]? = some r → ∃ v, r[num]? = some v ∧ col[k]? = some v := by
                intro rows
                induction rows with
                | nil => intro col hc; simp at hc; subst hc; simp
                | cons r rows ih =>
                  intro col hc
                  rw [List.mapM_cons] at hc
                  cases hr : r[num]? with
                  | none => rw [hr] at hc; simp at hc
                  | some x =>
                    rw [hr] at hc
                    cases hrs : rows.mapM fun r => r[num]? with
                    | none => rw [hrs] at hc; simp at hc
                    | some xs =>
                      rw [hrs] at hc
                      simp at hc; subst hc
                      obtain ⟨h1, h2⟩ := ih xs hrs
                      refine ⟨by simp [h1], ?_⟩
                      intro k r' hk
                      cases k with
                      | zero => simp at hk; subst hk; exact ⟨x, hr, by simp⟩
                      | succ k => simpa using h2 k r' (by simpa using hk)
              obtain ⟨h1, h2⟩ := aux rows col hcol
              exact .column nc rows num col hlt h1 h2
            · simp at h
          · simp at h
        · simp at h
  · intro h
    cases h with
    | scalar v => rfl
    | zero v => rfl
    | entry vs i v hv => simp [pick, hv]
    | whole vs => simp [pick]
    | column nc rows i col hlt hlen hcol =>
      simp only [pick, if_true, hlt]
      have : (rows.mapM fun r => r[num]?) = some col := by
        clear hv
        induction rows generalizing col with
        | nil => simp at hlen; subst hlen; rfl
        | cons r rows ih =>
          cases col with
          | nil => simp at hlen
          | cons x col =>
            obtain ⟨v, h1, h2⟩ := hcol 0 r rfl
            simp at h2; subst h2
            rw [List.mapM_cons, h1, ih col (by simpa using hlen) (fun k r' hk => by
              simpa using hcol (k + 1) r' (by simpa using hk))]
            rfl
      rw [this]

theorem randomConstraints_get? (draw : Nat → R → Arr V) (h : List (Op P R)) {c : R} {ps : List P}
    (hm : (c, ps) ∈ adds h) : ∃ n ps', (adds h)[n]? = some (c, ps') ∧
      (randomConstraints draw (run h)).get? c = some (draw n c) := by
  unfold randomConstraints
  rw [run_constraints, Dict.get?_ofPairs]
  have hs : (Dict.get? ((adds h).zipIdx.map fun e => (e.1.1, draw e.2 e.1.1)).reverse c).isSome := by
    rw [Dict.get?_isSome_iff, Dict.keys, List.map_reverse, List.mem_reverse, List.map_map]
    obtain ⟨n, hn⟩ := List.mem_iff_getElem?.1 hm
    exact List.mem_map.2 ⟨((c, ps), n), List.mem_zipIdx_iff_getElem?.2 hn, rfl⟩
  obtain ⟨a, ha⟩ := Option.isSome_iff_exists.1 hs
  have hmem := Dict.mem_of_get? ha
  rw [List.mem_reverse, List.mem_map] at hmem
  obtain ⟨⟨⟨c', ps'⟩, n⟩, he, heq⟩ := hmem
  simp only [Prod.mk.injEq] at heq
  obtain ⟨rfl, rfl⟩ := heq
  exact ⟨n, ps', List.mem_zipIdx_iff_getElem?.1 he, ha⟩

/-- **C07.** For every history and whatever the distributions draw (`draw n c` is the result of the
n-th `get_random` call): there is one draw `D c` per distribution object, made in this call, such
that if `get_random_all` returns, it returns values for exactly the constrained parameters and the
value of each parameter is the component of `D c` at the parameter's own position, `c` being the
constraint in force.  (`hshape`: for `size=None` no distribution returns a matrix.) -/
theorem C07_random_respects_correlations (draw : Nat → R → Arr V) (size : Option Nat)
    (h : List (Op P R))
    (hshape : ∀ n c nc rows, draw n c = .mat nc rows → size ≠ none) :
    ∃ D : R → Arr V,
      (∀ p i c, InForce h p i c → ∃ n ps, (adds h)[n]? = some (c, ps) ∧ D c = draw n c) ∧
      ∀ d, getRandomAll draw size (run h) = .ok d →
        d.keys = allParameters (run h) ∧
        ∀ p i c, InForce h p i c → ∃ v, d.get? p = some v ∧ IsComponent size (D c) i v := by
  refine ⟨fun c => ((randomConstraints draw (run h)).get? c).getD (draw 0 c), ?_, ?_⟩
  · intro p i c hf
    obtain ⟨ps, hm, -⟩ := hf.mem_adds
    obtain ⟨n, ps', hn, hg⟩ := randomConstraints_get? draw h hm
    exact ⟨n, ps', hn, by simp [hg]⟩
  · intro d hd
    unfold getRandomAll at hd
    simp only at hd
    rw [mapM_ok_iff] at hd
    have hk : d.keys = allParameters (run h) := by
      unfold allParameters Dict.keys
      revert hd
      generalize (run h).parameters = l
      intro hd
      induction hd with
      | nil => rfl
      | cons h1 _ ih =>
        rw [List.map_cons, List.map_cons, ih]
        congr 1
        split at h1
        · simp at h1
        · simp only [bind, Except.bind, pure, Except.pure] at h1
          split at h1
          · simp at h1
          · cases h1; rfl
    have wf : Dict.WF d := by unfold Dict.WF; rw [hk]; exact wf_run h
    refine ⟨hk, fun p i c hf => ?_⟩
    obtain ⟨ps, hm, -⟩ := hf.mem_adds
    obtain ⟨n, ps', hn, hg⟩ := randomConstraints_get? draw h hm
    have hmem := Dict.mem_of_get? ((get?_run h p i c).2 hf)
    have : ∃ v, (p, v) ∈ d ∧ pick size i (draw n c) = .ok v := by
      clear hk wf
      revert hd hmem
      generalize (run h).parameters = l
      intro hd hmem
      induction hd with
      | nil => simp at hmem
      | cons h1 _ ih =>
        rcases List.mem_cons.1 hmem with rfl | hmem
        · simp only [hg] at h1
          cases hp : pick size i (draw n c) with
          | error e => rw [hp] at h1; simp [bind, Except.bind] at h1
          | ok v =>
            rw [hp] at h1
            simp only [bind, Except.bind, pure, Except.pure, Except.ok.injEq] at h1
            subst h1
            exact ⟨v, by simp, rfl⟩
        · obtain ⟨v, hv, hp⟩ := ih hmem
          exact ⟨v, List.mem_cons_of_mem _ hv, hp⟩
    obtain ⟨v, hv, hp⟩ := this
    refine ⟨v, Dict.get?_of_mem wf hv, ?_⟩
    simp only [hg, Option.getD_some]
    exact (pick_ok_iff size i (draw n c) v (fun nc rows he => hshape n c nc rows he)).1 hp

/-- **C07.** `get_random_all` returns whenever every draw has the component asked for. -/
theorem C07_random_succeeds (draw : Nat → R → Arr V) (size : Option Nat) (h : List (Op P R))
    (hshape : ∀ n c nc rows, draw n c = .mat nc rows → size ≠ none)
    (hok : ∀ p i c n, InForce h p i c → ∃ v, IsComponent size (draw n c) i v) :
    ∃ d, getRandomAll draw size (run h) = .ok d := by
  unfold getRandomAll
  apply mapM_ok_of_forall
  rintro ⟨p, i, c⟩ hmem
  have hf := (get?_run h p i c).1 (Dict.get?_of_mem (wf_run h) hmem)
  obtain ⟨ps, hm, -⟩ := hf.mem_adds
  obtain ⟨n, ps', hn, hg⟩ := randomConstraints_get? draw h hm
  obtain ⟨v, hv⟩ := hok p i c n hf
  have hp := (pick_ok_iff size i (draw n c) v (fun nc rows he => hshape n c nc rows he)).2 hv
  exact ⟨(p, v), by simp only [hg, hp]; rfl⟩

example : getRandomAll (fun n c => if c = 10 then .vec [(n : Int), 20] else .scalar 5) none (run exHist)
    = .ok [("a", .num 0), ("b", .num 5)] := by decide
example : getRandomAll (fun _ c => if c = 10 then .mat 2 [[(1 : Int), 2], [3, 4]] else .vec [5, 6])
    (some 2) (run exHist) = .ok [("a", .arr [1, 3]), ("b", .arr [5, 6])] := by decide

/-! ## C08 -/

/-- Re-adding all `add_constraint` calls of `h` with objects renamed by position. (Specification.) -/
def reloaded (load : Nat → R) : List (Op P R) → Nat → List (Op P R)
  | [], _ => []
  | .add ps _ :: h, n => .add ps (load n) :: reloaded load h (n + 1)
  | .remove _ :: h, n => reloaded load h n

theorem fromYamlList_getYamlList {Y D : Type} (enc : D → Y) (val : R → D)
    (load : Nat → Y → Except PyErr R)
    (hload : ∀ n d, ∃ r, load n (enc d) = .ok r ∧ val r = d) (h : List (Op P R)) :
    ∃ s', fromYamlList load (getYamlList (enc ∘ val) (run h)) = .ok s' ∧
      ∀ p, (s'.parameters.get? p).map (fun e => (e.1, val e.2)) =
        ((adds h).reverse.findSome? fun e => (lastIdx e.2 p).map fun i => (i, val e.1)) := by
  unfold fromYamlList getYamlList
  rw [run_constraints]
  generalize adds h = l
  suffices H : ∀ (l : List (R × List P)) (k : Nat) (s : CState P R),
      ∃ s', ((l.map fun e => (⟨e.2, (enc ∘ val) e.1⟩ : YEntry P Y)).zipIdx k).foldlM (fun s e => do
          let c ← load e.2 e.1.values
          pure (addConstraint s e.1.params c)) s = .ok s' ∧
        ∀ p, (s'.parameters.get? p).map (fun e => (e.1, val e.2)) =
          (l.reverse.findSome? fun e => (lastIdx e.2 p).map fun i => (i, val e.1)).or
            ((s.parameters.get? p).map (fun e => (e.1, val e.2))) by
    obtain ⟨s', h1, h2⟩ := H l 0 CState.init
    refine ⟨s', h1, fun p => ?_⟩
    rw [h2 p]; simp [CState.init]
  intro l
  induction l with
  | nil => intro k s; exact ⟨s, rfl, fun p => by simp⟩
  | cons e l ih =>
    intro k s
    obtain ⟨c, ps⟩ := e
    obtain ⟨r, hr, hv⟩ := hload k (val c)
    obtain ⟨s', h1, h2⟩ := ih (k + 1) (addConstraint s ps r)
    refine ⟨s', ?_, fun p => ?_⟩
    · rw [List.map_cons, List.zipIdx_cons, List.foldlM_cons]
      simp only [Function.comp_apply, hr]
      exact h1
    · rw [h2 p, List.reverse_cons, List.findSome?_append, get?_addConstraint]
      cases List.findSome? (fun e => Option.map (fun i => (i, val e.1)) (lastIdx e.2 p)) l.reverse with
      | some x => simp
      | none =>
        simp only [Option.none_or, List.findSome?_cons, List.findSome?_nil]
        cases lastIdx ps p <;> simp [hv]

theorem inForce_of_findSome {D : Type} (val : R → D) (h : List (Op P R)) (p : P)
    (hc : p ∈ named h → Constrained h p) :
    ((adds h).reverse.findSome? fun e => (lastIdx e.2 p).map fun i => (i, val e.1)) =
      ((run h).parameters.get? p).map fun e => (e.1, val e.2) := by
  induction h using List.reverseRecOn with
  | nil => rfl
  | append_singleton h op ih =>
    rw [run_append_singleton, adds_append]
    cases op with
    | add ps c =>
      simp only [step, get?_addConstraint, adds, List.reverse_append, List.reverse_cons,
        List.reverse_nil, List.nil_append, List.findSome?_append, List.findSome?_cons,
        List.findSome?_nil]
      cases hl : lastIdx ps p with
      | some n => simp
      | none =>
        simp only [Option.map_none, Option.none_or]
        apply ih
        intro hn
        have hnp : p ∉ ps := (lastIdx_eq_none_iff ps p).1 hl
        obtain ⟨i, c', hf⟩ := hc (by rw [named_append]; simp [hn])
        exact ⟨i, c', ((C01_add h ps c p).2 hnp i c').1 hf⟩
    | remove q =>
      simp only [adds, List.append_nil, step, removeConstraint, Dict.get?_erase]
      by_cases hq : q = p
      · subst hq
        have hnn : q ∉ named h := by
          intro hn
          exact (C01_remove h q q).1 (hc (by rw [named_append]; simp [hn]))
        simp only [if_true, Option.map_none]
        rw [List.findSome?_eq_none_iff]
        intro e he
        rw [List.mem_reverse] at he
        have : q ∉ e.2 := by
          intro hqe
          apply hnn
          clear hc ih hnn
          induction h with
          | nil => simp [adds] at he
          | cons op h ih =>
            cases op with
            | add ps c =>
              simp only [adds, List.mem_cons] at he
              simp only [named, List.mem_append]
              rcases he with rfl | he
              · exact Or.inl hqe
              · exact Or.inr (ih he)
            | remove r => exact ih he
        rw [(lastIdx_eq_none_iff e.2 q).2 this]; rfl
      · simp only [hq, if_false]
        apply ih
        intro hn
        obtain ⟨i, c', hf⟩ := hc (by rw [named_append]; simp [hn])
        exact ⟨i, c', ((C01_remove h q p).2 (fun e => hq e.symm) i c').1 hf⟩

/-- **C08, the part that holds** (missing: objects from which a constraint was removed and not set
again, see `C08_removed_constraint_comes_back`).  Assume the distribution data survives dumping and
loading (`hload`, property C38).  If every parameter that was ever added is still constrained, then
`from_yaml_dict(get_yaml_dict())` succeeds and every parameter has the same position and the same
distribution content as before. -/
theorem C08_yaml_roundtrip_partial {Y D : Type} (enc : D → Y) (val : R → D)
    (load : Nat → Y → Except PyErr R)
    (hload : ∀ n d, ∃ r, load n (enc d) = .ok r ∧ val r = d)
    (h : List (Op P R)) (hc : ∀ p ∈ named h, Constrained h p) :
    ∃ s', fromYamlList load (getYamlList (enc ∘ val) (run h)) = .ok s' ∧
      ∀ p, (s'.parameters.get? p).map (fun e => (e.1, val e.2)) =
        ((run h).parameters.get? p).map (fun e => (e.1, val e.2)) := by
  obtain ⟨s', h1, h2⟩ := fromYamlList_getYamlList enc val load hload h
  exact ⟨s', h1, fun p => by rw [h2 p, inForce_of_findSome val h p (hc p)]⟩

/-- **C08 is false of the code**: a removed constraint is dumped and comes back when loading. -/
theorem C08_removed_constraint_comes_back :
    let h : List (Op String Nat) := [.add ["a"] 1, .remove "a"]
    allParameters (run h) = [] ∧
    (fromYamlList (fun _ y => .ok y) (getYamlList id (run h))).map allParameters = .ok ["a"] := by
  decide

/-- The exact behaviour: reloading forgets all removals, it restores the last constraint ever added. -/
theorem C08_reload_forgets_removals {Y D : Type} (enc : D → Y) (val : R → D)
    (load : Nat → Y → Except PyErr R)
    (hload : ∀ n d, ∃ r, load n (enc d) = .ok r ∧ val r = d) (h : List (Op P R)) :
    ∃ s', fromYamlList load (getYamlList (enc ∘ val) (run h)) = .ok s' ∧
      ∀ p, (s'.parameters.get? p).map (fun e => (e.1, val e.2)) =
        ((run (h.filter fun | .add _ _ => true | .remove _ => false)).parameters.get? p).map
          (fun e => (e.1, val e.2)) := by
  obtain ⟨s', h1, h2⟩ := fromYamlList_getYamlList enc val load hload h
  refine ⟨s', h1, fun p => ?_⟩
  rw [h2 p]
  have ha : adds (h.filter fun | .add _ _ => true | .remove _ => false) = adds h := by
    clear h1 h2
    induction h with
    | nil => rfl
    | cons op h ih => cases op <;> simp [adds, ih]
  rw [← ha]
  apply inForce_of_findSome
  intro hn
  have hr : ∀ op ∈ (h.filter fun | .add _ _ => true | .remove _ => false), ∃ ps c, op = Op.add ps c := by
    intro op hop
    rw [List.mem_filter] at hop
    cases op with
    | add ps c => exact ⟨ps, c, rfl⟩
    | remove q => simp at hop
  revert hn hr
  generalize (h.filter fun | .add _ _ => true | .remove _ => false) = g
  intro hn hr
  induction g using List.reverseRecOn with
  | nil => simp [named] at hn
  | append_singleton g op ih =>
    obtain ⟨ps, c, rfl⟩ := hr op (by simp)
    by_cases hp : p ∈ ps
    · obtain ⟨i, -, hf⟩ := (C01_add g ps c p).1 hp
      exact ⟨i, c, hf⟩
    · rw [named_append] at hn
      simp only [named, List.append_nil, List.mem_append, hp, or_false] at hn
      obtain ⟨i, c', hf⟩ := ih hn (fun o ho => hr o (by simp [ho]))
      exact ⟨i, c', ((C01_add g ps c p).2 hp i c').2 hf⟩

example : ∀ p ∈ named (exHist ++ [.add ["c"] 14]), Constrained (exHist ++ [.add ["c"] 14]) p := by
  intro p hp
  rw [← mem_keys_run]
  revert p; decide

/-! ## C09 -/

/-- Renaming the objects in a history. (Specification.) -/
def Op.rename {R' : Type} (ρ : R → R') : Op P R → Op P R'
  | .add ps c => .add ps (ρ c)
  | .remove p => .remove p

theorem get?_copy {R' : Type} (ρ : R → R') (s : CState P R) (p : P) :
    (copyState ρ s).parameters.get? p = (s.parameters.get? p).map fun e => (e.1, ρ e.2) := by
  unfold copyState
  simp only
  generalize s.parameters = d
  induction d with
  | nil => rfl
  | cons e d ih =>
    obtain ⟨q, i, c⟩ := e
    simp only [List.map_cons, Dict.get?_cons, ih]
    by_cases hq : q = p <;> simp [hq]

theorem copy_step {R' : Type} [DecidableEq R'] (ρ : R → R') (s : CState P R) (op : Op P R) :
    copyState ρ (step s op) = step (copyState ρ s) (op.rename ρ) := by
  have herase : ∀ (d : Dict P (Nat × R)) (p : P),
      (d.erase p).map (fun e => (e.1, (e.2.1, ρ e.2.2))) =
        Dict.erase (d.map fun e => (e.1, (e.2.1, ρ e.2.2))) p := by
    intro d p
    unfold Dict.erase
    rw [List.filter_map]
    rfl
  cases op with
  | remove p => simp [step, removeConstraint, Op.rename, copyState, herase]
  | add ps c =>
    simp only [step, addConstraint, Op.rename, copyState, List.map_append, List.map_cons, List.map_nil]
    congr 1
    generalize ps.zipIdx = l
    generalize s.parameters = d
    induction l generalizing d with
    | nil => rfl
    | cons e l ih =>
      rw [List.foldl_cons, List.foldl_cons, ih]
      congr 1
      rw [addOne_eq, addOne_eq, List.map_append, herase]
      rfl

/-- **C09.** A copy shows the same parameters in the same order, the same central values and the
same log-probabilities (keyed by the copied objects), if the copied objects have the same attributes
as the originals ... -/
theorem C09_copy_observationally_equal {R' : Type} [DecidableEq R'] (ρ : R → R')
    (hinj : ∀ a b, ρ a = ρ b → a = b) (s : CState P R)
    (cv : R → Central V) (cv' : R' → Central V) (hcv : ∀ c, cv' (ρ c) = cv c)
    (f : R → PdfArg V → Except PyErr L) (f' : R' → PdfArg V → Except PyErr L)
    (hf : ∀ c a, f' (ρ c) a = f c a) (isStr : P → Bool) (par : P → Option V) (excl : List P) :
    allParameters (copyState ρ s) = allParameters s ∧
    (∀ p, getCentral cv' isStr (copyState ρ s) p = getCentral cv isStr s p) ∧
    getLogprobAll f' (copyState ρ s) par excl =
      (getLogprobAll f s par excl).map (fun d => d.map fun e => (ρ e.1, e.2)) := by
  refine ⟨?_, ?_, ?_⟩
  · simp [allParameters, copyState, Dict.keys]
  · intro p
    unfold getCentral
    rw [get?_copy]
    cases s.parameters.get? p with
    | none => rfl
    | some e => simp [hcv]
  · unfold getLogprobAll
    have hset : ∀ (d : Dict R L) (c : R) (l : L),
        (d.set c l).map (fun e => (ρ e.1, e.2)) =
          Dict.set (d.map fun e => (ρ e.1, e.2)) (ρ c) l := by
      intro d c l
      induction d with
      | nil => rfl
      | cons e d ih =>
        obtain ⟨a, b⟩ := e
        simp only [Dict.set, List.map_cons]
        by_cases h : a = c
        · simp [h]
        · have : ρ a ≠ ρ c := fun h' => h (hinj _ _ h')
          simp [h, this, ih]
    have hpc : ∀ c ps, pCons (copyState ρ s) excl (ρ c) ps = pCons s excl c ps := by
      intro c ps
      unfold pCons
      apply List.filter_congr
      intro p _
      rw [get?_copy]
      congr 1
      apply decide_eq_decide.2
      cases s.parameters.get? p with
      | none => simp
      | some e =>
        obtain ⟨i, c'⟩ := e
        simp only [Option.map_some, Option.some.injEq, Prod.mk.injEq]
        constructor
        · rintro ⟨rfl, h⟩; exact ⟨rfl, hinj _ _ h⟩
        · rintro ⟨rfl, rfl⟩; exact ⟨rfl, rfl⟩
    show List.foldlM _ _ (s.constraints.map fun e => (ρ e.1, e.2)) = _
    suffices H : ∀ (l : List (R × List P)) (d : Dict R L),
        (l.map fun e => (ρ e.1, e.2)).foldlM (logprobStep f' (copyState ρ s) par excl)
            (d.map fun e => (ρ e.1, e.2)) =
          (l.foldlM (logprobStep f s par excl) d).map (fun d => d.map fun e => (ρ e.1, e.2)) from
      H s.constraints []
    intro l
    induction l with
    | nil => intro d; rfl
    | cons e l ih =>
      intro d
      rw [List.map_cons, List.foldlM_cons, List.foldlM_cons]
      have hst : logprobStep f' (copyState ρ s) par excl (d.map fun e => (ρ e.1, e.2)) (ρ e.1, e.2) =
          (logprobStep f s par excl d e).map (fun d => d.map fun e => (ρ e.1, e.2)) := by
        unfold logprobStep
        simp only [hpc, hf]
        cases readAll par (pCons s excl e.1 e.2) with
        | error er => rfl
        | ok x =>
          cases x with
          | nil => rfl
          | cons x0 xs =>
            simp only [bind, Except.bind]
            cases f e.1 _ with
            | error er => rfl
            | ok lv => simp only [pure, Except.pure, Except.map, hset]
      rw [hst]
      cases logprobStep f s par excl d e with
      | error er => rfl
      | ok d' => exact ih d'

/-- **C09.** ... and stays so when the same further calls are made on both. -/
theorem C09_copy_bisimilar {R' : Type} [DecidableEq R'] (ρ : R → R') (s : CState P R)
    (h : List (Op P R)) :
    (h.map (Op.rename ρ)).foldl step (copyState ρ s) = copyState ρ (h.foldl step s) := by
  induction h generalizing s with
  | nil => rfl
  | cons op h ih => rw [List.map_cons, List.foldl_cons, List.foldl_cons, ← copy_step, ih]

/-- Several `Constraints` objects in memory, addressed by number, and calls on one of them. (Specification.) -/
inductive HeapOp (P R : Type) where
  | call (addr : Nat) (op : Op P R)
  | copy (src : Nat) (ρ : R → R)

/-- `copy` allocates a new object at the end of the heap, `call` changes the addressed object.
/repo/flavio/classes.py:358-360 (deepcopy shares nothing between source and copy). -/
def heapStep (w : List (CState P R)) : HeapOp P R → List (CState P R)
  | .call a op => w.modify a (step · op)
  | .copy a ρ => match w[a]? with
    | some s => w ++ [copyState ρ s]
    | none => w

/-- **C09.** Calls on other objects, in particular on copies or originals, never change an object. -/
theorem C09_copy_independent (w : List (CState P R)) (a : Nat) (s : CState P R) (hs : w[a]? = some s)
    (ops : List (HeapOp P R)) (hops : ∀ op ∈ ops, ∀ b o, op = .call b o → b ≠ a) :
    (ops.foldl heapStep w)[a]? = some s := by
  induction ops generalizing w with
  | nil => exact hs
  | cons op ops ih =>
    rw [List.foldl_cons]
    apply ih
    · cases op with
      | call b o =>
        have hb := hops _ (by simp) b o rfl
        simp only [heapStep]
        rw [List.getElem?_modify]
        simp [hb, hs]
      | copy b ρ =>
        simp only [heapStep]
        split
        · have hlt : a < w.length := by
            rcases Nat.lt_or_ge a w.length with h | h
            · exact h
            · rw [List.getElem?_eq_none h] at hs; simp at hs
          rw [List.getElem?_append_left hlt]; exact hs
        · exact hs
    · intro o ho; exact hops o (by simp [ho])

example : ([HeapOp.copy 0 (· + 1), .call 1 (.remove "a")].foldl heapStep [run exHist])[0]?.map allParameters
    = some ["a", "b"] ∧
  ([HeapOp.copy 0 (· + 1), .call 1 (.remove "a")].foldl heapStep [run exHist])[1]?.map allParameters
    = some ["b"] := by decide

/-! ## C10 -/

/-- **C10.** The argument contract of `set_constraint`: errors leave the object unchanged, success
puts exactly the convolution of the given distributions in force for the parameter (position 0) and
leaves every other parameter untouched. -/
theorem C10_set_constraint {Str Dic : Type} (parse : Str → Except PyErr (List R))
    (conv : Dic → Except PyErr (List R)) (convolve : List R → Except PyErr R)
    (h : List (Op P R)) (p : P) (cs : Option Str) (cd : Option Dic) :
    (∀ a b, cs = some a → cd = some b →
      setConstraint parse conv convolve (run h) p cs cd = (run h, some .valueError)) ∧
    (cs = none → cd = none →
      setConstraint parse conv convolve (run h) p cs cd = (run h, some .typeError)) ∧
    (∀ pds c, ((∃ a, cs = some a ∧ cd = none ∧ parse a = .ok pds) ∨
        (∃ b, cs = none ∧ cd = some b ∧ conv b = .ok pds)) → convolve pds = .ok c →
      setConstraint parse conv convolve (run h) p cs cd = (run (h ++ [.add [p] c]), none) ∧
      InForce (h ++ [.add [p] c]) p 0 c ∧
      ∀ q, q ≠ p → ∀ i c', InForce (h ++ [.add [p] c]) q i c' ↔ InForce h q i c') ∧
    (∀ s' e, setConstraint parse conv convolve (run h) p cs cd = (s', some e) → s' = run h) := by
  refine ⟨?_, ?_, ?_, ?_⟩
  · rintro a b rfl rfl; rfl
  · rintro rfl rfl; rfl
  · rintro pds c hpd hc
    refine ⟨?_, ?_, ?_⟩
    · rw [run_append_singleton]
      rcases hpd with ⟨a, rfl, rfl, ha⟩ | ⟨b, rfl, rfl, hb⟩
      · simp [setConstraint, ha, bind, Except.bind, hc, step]
      · simp [setConstraint, hb, bind, Except.bind, hc, step]
    · refine ⟨h, [p], [], rfl, rfl, ?_, by simp⟩
      intro j hj
      rw [List.getElem?_eq_none (by simp; omega)]; simp
    · intro q hq i c'
      exact (C01_add h [p] c q).2 (by simpa using hq) i c'
  · intro s' e hs
    unfold setConstraint at hs
    split at hs <;> try split at hs
    all_goals simp at hs
    all_goals exact hs.1.symm

example : (setConstraint (fun (_ : String) => .ok [10, 11]) (fun (_ : Nat) => .error .valueError)
    (fun l => .ok l.sum) (run exHist) "a" (some "1(2)") none).1.parameters.get? "a" = some (0, 21) := by
  decide

/-! ## C11 -/

/-- **C11.** `get_logprobability_single(p, v)` for the constraint in force: the number for a
one-parameter constraint, otherwise the marginal with exactly the other positions excluded. -/
theorem C11_logprob_single (f : R → PdfArg V → Except PyErr L) (h : List (Op P R)) (hp : Proper h)
    (p : P) (i : Nat) (c : R) (ps : List P) (v : V) (hf : InForce h p i c) (hm : (c, ps) ∈ adds h) :
    getLogprobSingle f (run h) p v =
      if ps.length = 1 then f c (.scalar v)
      else f c (.vec [v] (some ((List.range ps.length).filter fun j => decide (j ≠ i)))) := by
  unfold getLogprobSingle
  rw [(get?_run h p i c).2 hf]
  simp only
  rw [run_constraints, Dict.ofPairs_of_nodup _ hp.fresh, Dict.get?_of_mem hp.fresh hm]
  simp only
  split
  · rfl
  · congr 3
    have hl : LastAt ps p i := by
      obtain ⟨ps', hm', hl⟩ := hf.mem_adds
      rwa [eq_of_fresh hp hm hm']
    have hnd := hp.nodup _ hm
    have h1 : (ps.zipIdx.filter fun e => decide (e.1 ≠ p)).map Prod.snd = otherPositions ps [p] := by
      rw [← otherPositions_eq]
      congr 2
      funext e
      simp
    rw [h1]
    unfold otherPositions
    apply List.filter_congr
    intro j hj
    rw [List.mem_range] at hj
    rw [List.getElem?_eq_getElem hj]
    simp only [List.mem_singleton]
    apply decide_eq_decide.2
    have hi : i < ps.length := by
      rcases Nat.lt_or_ge i ps.length with h | h
      · exact h
      · have := hl.1; rw [List.getElem?_eq_none h] at this; simp at this
    have hpi : ps[i] = p := by
      have := hl.1; rw [List.getElem?_eq_getElem hi] at this; simpa using this
    constructor
    · rintro hne rfl; exact hne hpi
    · intro hne he
      exact hne (hnd.getElem_inj_iff.1 (he.trans hpi.symm))

/-- **C11.** For an unconstrained parameter `KeyError` is raised. -/
theorem C11_unconstrained (f : R → PdfArg V → Except PyErr L) (h : List (Op P R)) (p : P) (v : V)
    (hc : ¬ Constrained h p) : getLogprobSingle f (run h) p v = .error .keyError := by
  unfold getLogprobSingle
  rw [(Dict.get?_eq_none_iff _ _).2 (by rwa [mem_keys_run])]

example : Proper exHist ∧ InForce exHist "a" 0 10 ∧ (10, ["a", "b"]) ∈ adds exHist :=
  ⟨⟨by decide, by decide⟩, (get?_run _ _ _ _).1 (by decide), by decide⟩

/-! ## C12 -/

/-- **C12.** If the errors of all distributions that were ever added can be evaluated and have the
needed components, `get_1d_errors_rightleft` returns for each constrained parameter the right and
left error of its constraint in force at its own position. -/
theorem C12_errors_rightleft (errL errR : R → Except PyErr (Central V)) (h : List (Op P R))
    (el er : R → Central V)
    (hL : ∀ e ∈ adds h, errL e.1 = .ok (el e.1)) (hR : ∀ e ∈ adds h, errR e.1 = .ok (er e.1))
    (l r : P → V)
    (hcomp : ∀ p i c, InForce h p i c → component (er c) i = some (r p) ∧ component (el c) i = some (l p)) :
    get1dErrorsRightleft errL errR (run h) =
      .ok ((allParameters (run h)).map fun p => (p, (r p, l p))) := by
  have hravel : ∀ (x : Central V) (i : Nat) (v : V), component x i = some v → (ravel1 x)[i]? = some v := by
    intro x i v hx
    cases x with
    | scalar u =>
      simp only [component] at hx
      split at hx
      · rename_i hi; subst hi; simpa [ravel1] using hx
      · simp at hx
    | list vs => exact hx
    | array vs => exact hx
  have hml : ((run h).constraints.mapM fun e => errL e.1) = .ok ((adds h).map fun e => el e.1) := by
    rw [run_constraints, mapM_ok_iff, List.forall₂_map_right_iff, List.forall₂_same]
    exact hL
  have hmr : ((run h).constraints.mapM fun e => errR e.1) = .ok ((adds h).map fun e => er e.1) := by
    rw [run_constraints, mapM_ok_iff, List.forall₂_map_right_iff, List.forall₂_same]
    exact hR
  unfold get1dErrorsRightleft
  rw [hml, hmr]
  simp only [bind, Except.bind]
  rw [mapM_ok_iff]
  unfold allParameters Dict.keys
  rw [List.map_map, List.forall₂_map_right_iff, List.forall₂_same]
  rintro ⟨p, i, c⟩ hmem
  have hf := (get?_run h p i c).1 (Dict.get?_of_mem (wf_run h) hmem)
  obtain ⟨ps, hm, -⟩ := hf.mem_adds
  obtain ⟨h1, h2⟩ := hcomp p i c hf
  rw [run_constraints]
  have hcm : c ∈ (adds h).map Prod.fst := List.mem_map.2 ⟨_, hm, rfl⟩
  have hidx := List.idxOf_lt_length_of_mem hcm
  have hidx' : ((adds h).map Prod.fst).idxOf c < (adds h).length := by simpa using hidx
  have hget : ((adds h)[((adds h).map Prod.fst).idxOf c]).1 = c := by
    have := List.getElem_idxOf hidx
    rwa [List.getElem_map] at this
  simp only [List.getElem?_map, List.getElem?_eq_getElem hidx', Option.map_some, hget,
    hravel _ _ _ h1, hravel _ _ _ h2]
  rfl

example : get1dErrorsRightleft (fun c => .ok (if c = 10 then .array [(1 : Int), 2] else .scalar 3))
    (fun c => .ok (if c = 10 then .array [(4 : Int), 5] else .scalar 6)) (run exHist)
    = .ok [("a", (4, 1)), ("b", (6, 3))] := by decide

/-- The hypothesis about *all* distributions ever added is needed: an overwritten constraint whose
errors cannot be computed makes the call fail for the constraint that replaced it. -/
theorem C12_stale_constraint_raises :
    get1dErrorsRightleft (fun c => if c = 1 then .error .notImplementedError else .ok (.scalar (1 : Int)))
      (fun c => if c = 1 then .error .notImplementedError else .ok (.scalar (1 : Int)))
      (run [.add ["a", "b"] 1, .add ["a"] 2, .add ["b"] 3]) = .error .notImplementedError := by
  decide

/-! ## Parameter registration (C68) -/

/-- **C68.** `add_constraint(..., is_parameter_constraint=True)` leaves the constraints exactly as the
plain call does, and afterwards every named parameter exists as `Parameter`; existing ones are kept in
order and new ones appended in order of first occurrence. -/
theorem C68_parameter_constraint (reg : List P) (s : CState P R) (ps : List P) (c : R) :
    (addParameterConstraint reg s ps c).2 = addConstraint s ps c ∧
    (∀ p, p ∈ (addParameterConstraint reg s ps c).1 ↔ p ∈ reg ∨ p ∈ ps) ∧
    reg <+: (addParameterConstraint reg s ps c).1 ∧
    (reg.Nodup → (addParameterConstraint reg s ps c).1.Nodup) := by
  have herase : ∀ (d : Dict P (Nat × R)) (e : P × Nat), addOne c (d.erase e.1) e = addOne c d e := by
    intro d e
    rw [addOne_eq, addOne_eq]
    congr 1
    unfold Dict.erase
    rw [List.filter_filter]
    simp
  suffices H : ∀ (l : List (P × Nat)) (reg : List P) (d : Dict P (Nat × R)),
      let r := l.foldl (fun (acc : List P × Dict P (Nat × R)) e =>
        if e.1 ∈ acc.1 then (acc.1, addOne c (acc.2.erase e.1) e)
        else (acc.1 ++ [e.1], addOne c acc.2 e)) (reg, d)
      r.2 = l.foldl (addOne c) d ∧ (∀ p, p ∈ r.1 ↔ p ∈ reg ∨ p ∈ l.map Prod.fst) ∧
      reg <+: r.1 ∧ (reg.Nodup → r.1.Nodup) by
    have := H ps.zipIdx reg s.parameters
    simp only [List.zipIdx_map_fst] at this
    obtain ⟨h1, h2, h3, h4⟩ := this
    refine ⟨?_, h2, h3, h4⟩
    unfold addParameterConstraint addConstraint
    simp only [h1]
  intro l
  induction l with
  | nil => intro reg d; simp
  | cons e l ih =>
    intro reg d
    simp only [List.foldl_cons]
    by_cases he : e.1 ∈ reg
    · simp only [he, if_true, herase]
      obtain ⟨h1, h2, h3, h4⟩ := ih reg (addOne c d e)
      simp only [herase] at h1 h2 h3 h4
      refine ⟨h1, fun p => ?_, h3, h4⟩
      rw [h2 p]
      simp only [List.map_cons, List.mem_cons]
      constructor
      · rintro (h | h)
        · exact Or.inl h
        · exact Or.inr (Or.inr h)
      · rintro (h | rfl | h)
        · exact Or.inl h
        · exact Or.inl he
        · exact Or.inr h
    · simp only [he, if_false]
      obtain ⟨h1, h2, h3, h4⟩ := ih (reg ++ [e.1]) (addOne c d e)
      refine ⟨h1, fun p => ?_, (List.prefix_append _ _).trans h3, fun hn => h4 ?_⟩
      · rw [h2 p]
        simp only [List.mem_append, List.map_cons, List.mem_cons, List.not_mem_nil, or_false]
        rw [or_assoc]
      · rw [List.nodup_append]
        refine ⟨hn, by simp, ?_⟩
        intro a ha b hb
        simp at hb; subst hb
        rintro rfl; exact he ha

example : (addParameterConstraint ["a"] (run exHist) ["a", "d"] 20).1 = ["a", "d"] := by decide

end Verif.Constraints
