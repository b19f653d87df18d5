import Verif.Constraints.Lemmas

/-!
# Property theorems about `Constraints` (C01–C12)

`run h` is the state of a new `Constraints` object after the history `h` of
`add_constraint`/`remove_constraint` calls; `InForce h p i c` (Spec.lean) says, in terms of the
history only, that `c` is the constraint on `p`, with `p` at position `i`.
-/
set_option linter.unusedSectionVars false
set_option linter.unusedSimpArgs false
namespace Verif.Constraints
open Verif.Py

variable {P R V L : Type} [DecidableEq P] [DecidableEq R]

/-- For concrete examples: `a`, `b` jointly constrained by object 10, then `b` alone by 11, then
`c` by 12 and removed again. -/
def exHist : List (Op String Nat) :=
  [.add ["a", "b"] 10, .add ["b"] 11, .add ["c"] 12, .remove "c"]

/-! ## C01 -/

/-- At most one constraint is in force for a parameter. -/
theorem inForce_unique {h : List (Op P R)} {p : P} {i j : Nat} {c c' : R}
    (h1 : InForce h p i c) (h2 : InForce h p j c') : i = j ∧ c = c' := by
  rw [← get?_run] at h1 h2
  rw [h1] at h2; simpa using h2

/-- **C01.** After any history, what the object stores for `p` (and all query methods read) is the
constraint of the most recent `add_constraint` naming `p`, if `p` was not mentioned afterwards. -/
theorem C01_last_constraint_wins (h : List (Op P R)) (p : P) (i : Nat) (c : R) :
    (run h).parameters.get? p = some (i, c) ↔ InForce h p i c := get?_run h p i c

/-- **C01.** `add_constraint` puts its own distribution in force for all names in the call and leaves
all other names alone. -/
theorem C01_add (h : List (Op P R)) (ps : List P) (c : R) (p : P) :
    (p ∈ ps → ∃ i, ps[i]? = some p ∧ InForce (h ++ [.add ps c]) p i c) ∧
    (p ∉ ps → ∀ i c', InForce (h ++ [.add ps c]) p i c' ↔ InForce h p i c') := by
  constructor
  · intro hp
    obtain ⟨i, hi⟩ := Option.isSome_iff_exists.1 ((lastIdx_isSome_iff ps p).2 hp)
    have hl := (lastIdx_eq_some_iff ps p i).1 hi
    exact ⟨i, hl.1, (inForce_append_singleton _ _ _ _ _).2 (Or.inl ⟨ps, rfl, hl⟩)⟩
  · intro hp i c'
    rw [inForce_append_singleton]
    constructor
    · rintro (⟨ps', he, hl⟩ | ⟨-, h'⟩)
      · cases he; exact absurd hl.mem hp
      · exact h'
    · intro h'; exact Or.inr ⟨hp, h'⟩

/-- **C01.** `remove_constraint(p)` leaves `p` unconstrained and all others unchanged. -/
theorem C01_remove (h : List (Op P R)) (q p : P) :
    ¬ Constrained (h ++ [.remove q]) q ∧
    (p ≠ q → ∀ i c, InForce (h ++ [.remove q]) p i c ↔ InForce h p i c) := by
  constructor
  · rintro ⟨i, c, hc⟩
    rw [inForce_append_singleton] at hc
    rcases hc with ⟨ps, he, -⟩ | ⟨hn, -⟩
    · simp at he
    · exact hn rfl
  · intro hne i c
    rw [inForce_append_singleton]
    constructor
    · rintro (⟨ps', he, -⟩ | ⟨-, h'⟩)
      · simp at he
      · exact h'
    · intro h'; exact Or.inr ⟨fun e => hne e.symm, h'⟩

example : InForce exHist "b" 0 11 ∧ InForce exHist "a" 0 10 ∧ ¬ Constrained exHist "c" := by
  refine ⟨(get?_run _ _ _ _).1 (by decide), (get?_run _ _ _ _).1 (by decide), ?_⟩
  rw [← mem_keys_run]; decide

/-! ## C02 -/

/-- **C02.** `all_parameters` lists, without repetition, exactly the constrained parameters ... -/
theorem C02_all_parameters_exact (h : List (Op P R)) :
    (allParameters (run h)).Nodup ∧ ∀ p, p ∈ allParameters (run h) ↔ Constrained h p :=
  ⟨wf_run h, fun p => mem_keys_run h p⟩

/-- **C02.** ... in the order in which they were most recently given to `add_constraint`. -/
theorem C02_all_parameters_order (h : List (Op P R)) [DecidablePred (Constrained h)] :
    allParameters (run h) = (lastOccs (named h)).filter (fun p => decide (Constrained h p)) :=
  keys_run h

example : allParameters (run (exHist ++ [.add ["a"] 13])) = ["b", "a"] := by decide

/-! ## C03 -/

/-- **C03.** `get_central` succeeds exactly for constrained parameters whose position exists in the
central value, and then returns that component. -/
theorem C03_get_central (cv : R → Central V) (isStr : P → Bool) (h : List (Op P R)) (p : P) (v : V) :
    getCentral cv isStr (run h) p = .ok v ↔
      ∃ i c, InForce h p i c ∧ component (cv c) i = some v := by
  have key : ∀ (x : Central V) (i : Nat),
      ((match x.toFloat? with
        | none => x.item i
        | some v => if i = 0 then Except.ok v else .error .valueError) = Except.ok v ↔
          component x i = some v) := by
    intro x i
    cases x with
    | scalar u => by_cases hi : i = 0 <;> simp [Central.toFloat?, component, hi]
    | list vs =>
      simp only [Central.toFloat?, Central.item, component]
      cases vs[i]? <;> simp
    | array vs =>
      match vs with
      | [] => simp [Central.toFloat?, Central.item, component]
      | [u] =>
        simp only [Central.toFloat?, component]
        by_cases hi : i = 0
        · simp [hi]
        · rw [List.getElem?_eq_none (by simp; omega)]; simp [hi]
      | a :: b :: l =>
        simp only [Central.toFloat?, Central.item, component]
        cases (a :: b :: l)[i]? <;> simp
  unfold getCentral
  cases hg : (run h).parameters.get? p with
  | none =>
    constructor
    · intro h'; simp only at h'; split at h' <;> simp at h'
    · rintro ⟨i, c, hf, -⟩
      rw [← get?_run, hg] at hf; simp at hf
  | some e =>
    obtain ⟨i, c⟩ := e
    simp only
    refine (key _ _).trans ?_
    have hf := (get?_run h p i c).1 hg
    constructor
    · intro hv; exact ⟨i, c, hf, hv⟩
    · rintro ⟨i', c', hf', hv⟩
      obtain ⟨rfl, rfl⟩ := inForce_unique hf hf'
      exact hv

/-- **C03.** For an unconstrained parameter given as a string `get_central` raises `ValueError`
(and `TypeError` for a tuple: see DESIGN.md, findings). -/
theorem C03_get_central_unconstrained (cv : R → Central V) (isStr : P → Bool) (h : List (Op P R))
    (p : P) (hp : ¬ Constrained h p) :
    getCentral cv isStr (run h) p = .error (if isStr p then .valueError else .typeError) := by
  have : (run h).parameters.get? p = none := by
    rw [Dict.get?_eq_none_iff, mem_keys_run]; exact hp
  unfold getCentral
  rw [this]
  simp only
  split <;> simp_all

/-- **C03.** `get_central_all` has one entry per constrained parameter, in the order of
`all_parameters`, holding its `get_central`. -/
theorem C03_get_central_all (cv : R → Central V) (isStr : P → Bool) (h : List (Op P R))
    (d : Dict P V) (hd : getCentralAll cv isStr (run h) = .ok d) :
    d.keys = allParameters (run h) ∧
      ∀ p v, d.get? p = some v ↔ getCentral cv isStr (run h) p = .ok v ∧ Constrained h p := by
  have aux : ∀ (l : List P) (d : Dict P V),
      (l.mapM fun p => do
        let v ← getCentral cv isStr (run h) p
        pure (p, v) : Except PyErr _) = .ok d →
      d.keys = l ∧ ∀ p v, (p, v) ∈ d → getCentral cv isStr (run h) p = .ok v := by
    intro l
    induction l with
    | nil =>
      intro d hd
      simp only [List.mapM_nil] at hd
      cases hd; simp
    | cons q l ih =>
      intro d hd
      rw [List.mapM_cons] at hd
      cases hq : getCentral cv isStr (run h) q with
      | error e => rw [hq] at hd; simp [bind, Except.bind] at hd
      | ok u =>
        rw [hq] at hd
        simp only [bind, Except.bind, pure, Except.pure] at hd
        split at hd
        · simp at hd
        · rename_i d' hd'
          cases hd
          obtain ⟨h1, h2⟩ := ih d' hd'
          refine ⟨by simp [h1], ?_⟩
          intro p v hm
          rcases List.mem_cons.1 hm with hm | hm
          · cases hm; exact hq
          · exact h2 p v hm
  obtain ⟨h1, h2⟩ := aux _ d hd
  have wf : Dict.WF d := by unfold Dict.WF; rw [h1]; exact wf_run h
  refine ⟨h1, fun p v => ?_⟩
  constructor
  · intro hg
    refine ⟨h2 p v (Dict.mem_of_get? hg), ?_⟩
    rw [← mem_keys_run, ← h1, ← Dict.get?_isSome_iff, hg]; rfl
  · rintro ⟨hc, hk⟩
    rw [← mem_keys_run, ← h1, ← Dict.get?_isSome_iff, Option.isSome_iff_exists] at hk
    obtain ⟨u, hu⟩ := hk
    have := h2 p u (Dict.mem_of_get? hu)
    rw [hc] at this; cases this; exact hu

example : getCentral (fun c => if c = 10 then .list [(1 : Int), 2] else .scalar 5) (fun _ => true)
    (run exHist) "b" = .ok 5 := by decide
example : getCentral (fun c => if c = 10 then .list [(1 : Int), 2] else .scalar 5) (fun _ => true)
    (run exHist) "a" = .ok 1 := by decide
example : getCentral (fun _ => Central.scalar (5 : Int)) (fun _ => true) (run exHist) "c"
    = .error .valueError := by decide

/-! ## C04 -/

/-- The parameters of the call `add_constraint(ps, c)` that are still constrained by it and are not
excluded. (Specification.) -/
def live (h : List (Op P R)) (excl : List P) [∀ p c, Decidable (∃ i, InForce h p i c)]
    (c : R) (ps : List P) : List P :=
  ps.filter fun p => decide (p ∉ excl ∧ ∃ i, InForce h p i c)

theorem pCons_eq_live {h : List (Op P R)} (hp : Proper h) (excl : List P)
    [∀ p c, Decidable (∃ i, InForce h p i c)] {c : R} {ps : List P} (hm : (c, ps) ∈ adds h) :
    pCons (run h) excl c ps = live h excl c ps := by
  unfold pCons live
  apply List.filter_congr
  intro p hpm
  have : (run h).parameters.get? p = some (ps.idxOf p, c) ↔ ∃ i, InForce h p i c := by
    constructor
    · intro hg; exact ⟨_, (get?_run _ _ _ _).1 hg⟩
    · rintro ⟨i, hf⟩
      obtain ⟨ps', hm', hl⟩ := hf.mem_adds
      obtain rfl := eq_of_fresh hp hm hm'
      have h1 := lastIdx_of_nodup (hp.nodup _ hm) hpm
      rw [(lastIdx_eq_some_iff ps p i).2 hl] at h1
      simp only [Option.some.injEq] at h1; subst h1
      exact (get?_run _ _ _ _).2 hf
  rw [Bool.decide_and]
  congr 1
  exact decide_eq_decide.2 this

theorem readAll_of_val {par : P → Option V} {val : P → V} {l : List P}
    (hv : ∀ p ∈ l, par p = some (val p)) : readAll par l = .ok (l.map val) := by
  induction l with
  | nil => rfl
  | cons p l ih =>
    unfold readAll at ih ⊢
    rw [List.mapM_cons, ih (fun q hq => hv q (List.mem_cons_of_mem _ hq)), hv p (by simp)]
    rfl

theorem pdfArg_eq_intended (val : P → V) (ps live : List P) (hs : live.Sublist ps)
    (x0 : V) (xs : List V) (hx : live.map val = x0 :: xs) :
    pdfArg ps live (live.map val) x0 = intendedArg val ps live := by
  unfold pdfArg
  match ps, hs with
  | [], hs => simp at hs; subst hs; simp at hx
  | [p], hs =>
    have hl : live = [p] := by
      rcases List.sublist_singleton.1 hs with h | h
      · subst h; simp at hx
      · exact h
    subst hl
    simp at hx
    simp [intendedArg, hx.1]
  | a :: b :: ps, hs =>
    simp only [intendedArg, List.length_cons, List.length_map]
    rw [if_neg (by omega)]
    by_cases he : live = a :: b :: ps
    · rw [if_pos (by rw [he]; simp), if_pos he]
    · rw [if_neg he, if_neg, otherPositions_eq]
      intro hlen
      exact he (hs.eq_of_length (by simpa using hlen))

/-- **C04.** If every distribution object was used in one `add_constraint` call only and no call
repeats a name, `get_logprobability_all` evaluates, in order, exactly the distributions that still
constrain a non-excluded parameter, each once, at the values of those parameters in the order they
were given, with exactly the other positions excluded; the dictionary has one entry for each. -/
theorem C04_logprob_all (f : R → PdfArg V → Except PyErr L) (h : List (Op P R)) (hp : Proper h)
    [∀ p c, Decidable (∃ i, InForce h p i c)]
    (par : P → Option V) (val : P → V) (excl : List P)
    (hv : ∀ p, p ∉ excl → Constrained h p → par p = some (val p)) :
    getLogprobAll f (run h) par excl =
      ((adds h).filter fun e => decide (live h excl e.1 e.2 ≠ [])).mapM (fun e => do
        let l ← f e.1 (intendedArg val e.2 (live h excl e.1 e.2))
        pure (e.1, l)) := by
  unfold getLogprobAll
  rw [run_constraints]
  suffices H : ∀ (l : List (R × List P)) (d : Dict R L),
      (∀ e ∈ l, e ∈ adds h) → (d.keys ++ l.map Prod.fst).Nodup →
      l.foldlM (logprobStep f (run h) par excl) d =
        (do
          let r ← (l.filter fun e => decide (live h excl e.1 e.2 ≠ [])).mapM (fun e => do
            let l ← f e.1 (intendedArg val e.2 (live h excl e.1 e.2))
            pure (e.1, l))
          pure (d ++ r)) by
    rw [H (adds h) [] (fun _ h => h) (by simpa using hp.fresh)]
    simp
  intro l
  induction l with
  | nil => intro d _ _; simp
  | cons e l ih =>
    intro d hl hn
    obtain ⟨c, ps⟩ := e
    have hm : (c, ps) ∈ adds h := hl _ (by simp)
    have hpc : pCons (run h) excl c ps = live h excl c ps := pCons_eq_live hp excl hm
    have hread : readAll par (live h excl c ps) = .ok ((live h excl c ps).map val) := by
      apply readAll_of_val
      intro p hpl
      unfold live at hpl
      simp only [List.mem_filter, decide_eq_true_eq] at hpl
      obtain ⟨-, h1, i, h2⟩ := hpl
      exact hv p h1 ⟨i, c, h2⟩
    have hstep : logprobStep f (run h) par excl d (c, ps) =
        match (live h excl c ps).map val with
        | [] => Except.ok d
        | x0 :: _ => (do
          let l ← f c (pdfArg ps (live h excl c ps) ((live h excl c ps).map val) x0)
          pure (d.set c l)) := by
      unfold logprobStep
      simp only [hpc, hread]
      rfl
    rw [List.foldlM_cons, hstep]
    cases hx : (live h excl c ps).map val with
    | nil =>
      have hnil : live h excl c ps = [] := by simpa using hx
      simp only [List.filter_cons, hnil, ne_eq, not_true_eq_false, decide_false, Bool.false_eq_true,
        if_false]
      exact ih d (fun e he => hl e (by simp [he])) (by
        apply List.Nodup.sublist _ hn
        simp)
    | cons x0 xs =>
      have hne : live h excl c ps ≠ [] := by intro h0; rw [h0] at hx; simp at hx
      simp only [List.filter_cons, ne_eq, hne, not_false_eq_true, decide_true, if_true,
        List.mapM_cons]
      rw [← hx, pdfArg_eq_intended val ps _ (by unfold live; exact List.filter_sublist) x0 xs hx]
      cases hf : f c (intendedArg val ps (live h excl c ps)) with
      | error er => rfl
      | ok lv =>
        have hnot : c ∉ d.keys := by
          intro hc
          rw [List.map_cons, List.nodup_append] at hn
          exact hn.2.2 c hc c (by simp) rfl
        have hset : d.set c lv = d ++ [(c, lv)] := Dict.set_of_not_mem hnot
        have := ih (d ++ [(c, lv)]) (fun e he => hl e (by simp [he])) (by
          simpa [Dict.keys] using hn)
        simp only [bind, Except.bind, pure, Except.pure, ne_eq] at this ⊢
        rw [hset, this]
        generalize (List.mapM _ (List.filter _ l) : Except PyErr (List (R × L))) = M
        cases M <;> simp

/-- **C04.** A live, non-excluded parameter without a value makes the call raise. -/
theorem C04_missing_value_raises (f : R → PdfArg V → Except PyErr L) (h : List (Op P R))
    (hp : Proper h) (par : P → Option V) (excl : List P) (p : P)
    (h1 : p ∉ excl) (h2 : Constrained h p) (h3 : par p = none) :
    raises (getLogprobAll f (run h) par excl) := by
  classical
  obtain ⟨i, c, hf⟩ := h2
  obtain ⟨ps, hm, hl⟩ := hf.mem_adds
  have hpl : p ∈ pCons (run h) excl c ps := by
    rw [pCons_eq_live hp excl hm]
    unfold live
    simp only [List.mem_filter, decide_eq_true_eq]
    exact ⟨hl.mem, h1, i, hf⟩
  have hbad : ∀ l : List P, p ∈ l → raises (readAll par l) := by
    intro l
    induction l with
    | nil => simp
    | cons q l ih =>
      intro hq
      unfold readAll
      rw [List.mapM_cons]
      rcases List.mem_cons.1 hq with rfl | hq
      · rw [h3]; exact ⟨_, rfl⟩
      · obtain ⟨e, he⟩ := ih hq
        unfold readAll at he
        cases par q with
        | none => exact ⟨_, rfl⟩
        | some v => exact ⟨e, by simp only [he]; rfl⟩
  unfold getLogprobAll
  rw [run_constraints]
  generalize ([] : Dict R L) = d
  revert hm
  generalize adds h = l
  intro hm
  induction l generalizing d with
  | nil => simp at hm
  | cons e l ih =>
    rw [List.foldlM_cons]
    rcases List.mem_cons.1 hm with rfl | hm
    · obtain ⟨e, he⟩ := hbad _ hpl
      refine ⟨e, ?_⟩
      unfold logprobStep
      simp only [he]; rfl
    · cases hs : logprobStep f (run h) par excl d e with
      | error er => exact ⟨er, rfl⟩
      | ok d' => exact ih d' hm

instance (h : List (Op P R)) (p : P) (c : R) : Decidable (∃ i, InForce h p i c) :=
  match hg : (run h).parameters.get? p with
  | none => isFalse (by rintro ⟨i, hf⟩; rw [← get?_run, hg] at hf; simp at hf)
  | some (i, c') =>
    if hc : c' = c then isTrue ⟨i, by rw [← get?_run, hg, hc]⟩
    else isFalse (by
      rintro ⟨j, hf⟩; rw [← get?_run, hg] at hf
      simp only [Option.some.injEq, Prod.mk.injEq] at hf; exact hc hf.2)

example : Proper exHist ∧ live exHist ["z"] 10 ["a", "b"] = ["a"] ∧
    intendedArg (fun p => p.length) ["a", "b"] ["a"] = .vec [1] (some [1]) :=
  ⟨⟨by decide, by decide⟩, by decide, by decide⟩
example : getLogprobAll (fun c (a : PdfArg Nat) => .ok (c, a)) (run exHist)
    (fun p => if p = "a" then some 7 else if p = "b" then some 8 else none) [] =
    .ok [(10, (10, .vec [7] (some [1]))), (11, (11, .scalar 8))] := by decide

/-! ## C05 -/

/-- **C05.** Two parameter dictionaries that agree on the constrained, non-excluded parameters give
the same result (value or exception), whatever the history. -/
theorem C05_noninterference (f : R → PdfArg V → Except PyErr L) (h : List (Op P R))
    (par par' : P → Option V) (excl : List P)
    (hag : ∀ p, Constrained h p → p ∉ excl → par p = par' p) :
    getLogprobAll f (run h) par excl = getLogprobAll f (run h) par' excl := by
  unfold getLogprobAll
  have hstep : logprobStep f (run h) par excl = logprobStep f (run h) par' excl := by
    funext d e
    unfold logprobStep
    have hr : readAll par (pCons (run h) excl e.1 e.2) = readAll par' (pCons (run h) excl e.1 e.2) := by
      have : ∀ l : List P, (∀ p ∈ l, par p = par' p) → readAll par l = readAll par' l := by
        intro l
        induction l with
        | nil => intro _; rfl
        | cons q l ih =>
          intro hq
          unfold readAll at ih ⊢
          rw [List.mapM_cons, List.mapM_cons, hq q (by simp), ih (fun p hp => hq p (by simp [hp]))]
      apply this
      intro p hp
      unfold pCons at hp
      simp only [List.mem_filter, Bool.and_eq_true, decide_eq_true_eq] at hp
      exact hag p ⟨_, _, (get?_run _ _ _ _).1 hp.2.2⟩ hp.2.1
    simp only [hr]
  rw [hstep]

example : (∀ p, Constrained exHist p → p ∉ (["a"] : List String) →
    (fun p => if p = "b" then some 8 else none : String → Option Nat) p =
    (fun p => if p = "b" then some 8 else some 1) p) := by
  intro p hc hp
  rw [← mem_keys_run] at hc
  have : (run exHist).parameters.keys = ["a", "b"] := by decide
  rw [this] at hc
  simp only [List.mem_cons, List.not_mem_nil, or_false] at hc hp
  rcases hc with rfl | rfl
  · simp at hp
  · simp

/-! ## C06: false of the code -/

/-- Log-pdf used in the counterexample: the distribution object's parameter-free value `-(x²)`. -/
def exPdf : Nat → PdfArg Int → Except PyErr Int
  | _, .scalar x => .ok (-(x * x))
  | _, .vec xs _ => .ok (-(xs.map (fun x => x * x)).sum)

/-- The total log-probability (what likelihoods add up). (Specification.) -/
def totalLogprob (r : Except PyErr (Dict R Int)) : Except PyErr Int :=
  r.map fun d => (d.map Prod.snd).sum

/-- **C06 is false of the code**: with one object shared by two parameters the contribution of the
first is lost; with two equal copies (objects 1 and 2, same pdf) both contribute. -/
theorem C06_sharing_is_not_safe :
    let par : String → Option Int := fun p => if p = "a" then some 2 else some 3
    totalLogprob (getLogprobAll exPdf (run [.add ["a"] 1, .add ["b"] 1]) par []) = .ok (-9) ∧
    totalLogprob (getLogprobAll exPdf (run [.add ["a"] 1, .add ["b"] 2]) par []) = .ok (-13) := by
  decide

/-- **C06, the part that holds** (missing: histories in which an object is shared): as long as no
object is used twice, replacing objects by equal copies (an injective relabelling `ρ` with the same
pdf) does not change the list of contributions. -/
theorem C06_copies_partial (f : R → PdfArg V → Except PyErr L) (ρ : R → R) (h h' : List (Op P R))
    (hp : Proper h) (hp' : Proper h')
    (hh : h' = h.map fun | .add ps c => .add ps (ρ c) | .remove p => .remove p)
    (hf : ∀ c a, f (ρ c) a = f c a) (hinj : ∀ a b, ρ a = ρ b → a = b)
    (par : P → Option V) (val : P → V) (excl : List P)
    (hv : ∀ p, p ∉ excl → Constrained h p → par p = some (val p)) :
    (getLogprobAll f (run h') par excl).map (List.map Prod.snd) =
      (getLogprobAll f (run h) par excl).map (List.map Prod.snd) := by
  have hfor : ∀ p i c, InForce h' p i c ↔ ∃ c₀, c = ρ c₀ ∧ InForce h p i c₀ := by
    subst hh
    clear hp hp' hv
    intro p i c
    induction h using List.reverseRecOn generalizing i c with
    | nil =>
      constructor
      · rintro ⟨h₁, ps, h₂, he, -⟩; simp at he
      · rintro ⟨c₀, -, h₁, ps, h₂, he, -⟩; simp at he
    | append_singleton h op ih =>
      rw [List.map_append, List.map_singleton, inForce_append_singleton]
      constructor
      · rintro (⟨ps, he, hl⟩ | ⟨hn, hi⟩)
        · cases op with
          | add ps' c' =>
            simp only [Op.add.injEq] at he
            refine ⟨c', he.2.symm, ?_⟩
            rw [inForce_append_singleton]
            exact Or.inl ⟨ps', rfl, he.1 ▸ hl⟩
          | remove q => simp at he
        · obtain ⟨c₀, hc, hf⟩ := (ih i c).1 hi
          refine ⟨c₀, hc, ?_⟩
          rw [inForce_append_singleton]
          refine Or.inr ⟨?_, hf⟩
          cases op <;> exact hn
      · rintro ⟨c₀, rfl, hc⟩
        rw [inForce_append_singleton] at hc
        rcases hc with ⟨ps, rfl, hl⟩ | ⟨hn, hi⟩
        · exact Or.inl ⟨ps, rfl, hl⟩
        · refine Or.inr ⟨?_, (ih i _).2 ⟨c₀, rfl, hi⟩⟩
          cases op <;> exact hn
  have hv' : ∀ p, p ∉ excl → Constrained h' p → par p = some (val p) := by
    rintro p hpe ⟨i, c, hc⟩
    obtain ⟨c₀, -, hc₀⟩ := (hfor p i c).1 hc
    exact hv p hpe ⟨i, c₀, hc₀⟩
  rw [C04_logprob_all f h hp par val excl hv, C04_logprob_all f h' hp' par val excl hv']
  have hlive : ∀ c ps, live h' excl (ρ c) ps = live h excl c ps := by
    intro c ps
    unfold live
    apply List.filter_congr
    intro p _
    apply decide_eq_decide.2
    apply and_congr_right
    intro _
    constructor
    · rintro ⟨i, hi⟩
      obtain ⟨c₀, he, hc₀⟩ := (hfor p i _).1 hi
      rw [hinj _ _ he]; exact ⟨i, hc₀⟩
    · rintro ⟨i, hi⟩; exact ⟨i, (hfor p i _).2 ⟨c, rfl, hi⟩⟩
  have hadds : adds h' = (adds h).map fun e => (ρ e.1, e.2) := by
    subst hh
    clear hp hp' hv hfor hv' hlive
    induction h with
    | nil => rfl
    | cons op h ih => cases op <;> simp [adds, ih]
  rw [hadds, List.filter_map]
  have hfil : ((fun e : R × List P => decide (live h' excl e.1 e.2 ≠ [])) ∘
      fun e : R × List P => (ρ e.1, e.2)) = fun e => decide (live h excl e.1 e.2 ≠ []) := by
    funext e; simp [hlive]
  rw [hfil]
  generalize (adds h).filter _ = l
  induction l with
  | nil => rfl
  | cons e l ih =>
    simp only [List.map_cons, List.mapM_cons, hf, hlive]
    cases f e.1 (intendedArg val e.2 (live h excl e.1 e.2)) with
    | error er => rfl
    | ok lv =>
      simp only [bind, Except.bind, pure, Except.pure] at ih ⊢
      revert ih
      generalize (List.mapM _ (List.map _ l) : Except PyErr (List (R × L))) = A
      generalize (List.mapM _ l : Except PyErr (List (R × L))) = B
      intro ih
      cases A <;> cases B <;> simp_all [Except.map]

end Verif.Constraints
