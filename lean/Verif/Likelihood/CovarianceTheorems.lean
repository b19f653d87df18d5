import Verif.Likelihood.Covariance
import Verif.Likelihood.Theorems
import Mathlib.Data.List.Forall2

/-!
# Property theorems about the covariance classes and `FastLikelihood` (C49–C51)
-/
set_option linter.unusedSectionVars false
set_option linter.unusedSimpArgs false
set_option linter.unusedVariables false

namespace Verif.Likelihood
open Verif.Py Verif.Constraints

variable {P R V L : Type} [DecidableEq P] [DecidableEq R]

/-! ## C49 -/

/-- `m` is a matrix with `n` rows and `n` columns. (Specification.) -/
def IsSquare (n : Nat) (m : List (List V)) : Prop := m.length = n ∧ ∀ r ∈ m, r.length = n

/-- The entry in row `i`, column `j`. (Specification.) -/
def entry (m : List (List V)) (i j : Nat) : Option V := m[i]?.bind fun r => r[j]?

theorem takeIdx_spec {α : Type} (l : List α) (perm : List Nat) (h : ∀ k ∈ perm, k < l.length) :
    ∃ r, takeIdx l perm = .ok r ∧ r.length = perm.length ∧
      ∀ (i k : Nat), perm[i]? = some k → r[i]? = l[k]? := by
  unfold takeIdx
  induction perm with
  | nil => exact ⟨[], rfl, rfl, by simp⟩
  | cons k perm ih =>
    obtain ⟨r, h1, h2, h3⟩ := ih (fun k hk => h k (by simp [hk]))
    have hk := h k (by simp)
    refine ⟨l[k] :: r, ?_, by simp [h2], ?_⟩
    · rw [List.mapM_cons, List.getElem?_eq_getElem hk, h1]; rfl
    · intro i k' hi
      cases i with
      | zero =>
        simp only [List.getElem?_cons_zero, Option.some.injEq] at hi ⊢
        subst hi; rw [List.getElem?_eq_getElem hk]
      | succ i => simpa using h3 i k' (by simpa using hi)

theorem permute2_spec (rows : List (List V)) (n : Nat) (hs : IsSquare n rows) (perm : List Nat)
    (h : ∀ k ∈ perm, k < n) :
    ∃ m, permute2 perm (.mat rows) = .ok m ∧ IsSquare perm.length m ∧
      ∀ (i j k l : Nat), perm[i]? = some k → perm[j]? = some l → entry m i j = entry rows k l := by
  obtain ⟨rs, h1, h2, h3⟩ := takeIdx_spec rows perm (fun k hk => by rw [hs.1]; exact h k hk)
  have hrs : ∀ r ∈ rs, r.length = n := by
    intro r hr
    obtain ⟨i, hi⟩ := List.mem_iff_getElem?.1 hr
    have hilt : i < perm.length := by
      rw [← h2]; exact (List.getElem?_eq_some_iff.1 hi).1
    have := h3 i _ (List.getElem?_eq_getElem hilt)
    rw [hi] at this
    exact hs.2 r (List.mem_iff_getElem?.2 ⟨_, this.symm⟩)
  have hm : ∃ m, rs.mapM (fun r => takeIdx r perm) = .ok m ∧ m.length = rs.length ∧
      ∀ (i : Nat) (r : List V), rs[i]? = some r → ∃ r', m[i]? = some r' ∧ r'.length = perm.length ∧
        ∀ (j l : Nat), perm[j]? = some l → r'[j]? = r[l]? := by
    clear h1 h2 h3
    induction rs with
    | nil => exact ⟨[], rfl, rfl, by simp⟩
    | cons r rs ih =>
      obtain ⟨m, h1, h2, h3⟩ := ih (fun r hr => hrs r (by simp [hr]))
      obtain ⟨r', g1, g2, g3⟩ := takeIdx_spec r perm
        (fun k hk => by rw [hrs r (by simp)]; exact h k hk)
      refine ⟨r' :: m, ?_, by simp [h2], ?_⟩
      · rw [List.mapM_cons, g1, h1]; rfl
      · intro i r0 hi
        cases i with
        | zero =>
          simp only [List.getElem?_cons_zero, Option.some.injEq] at hi ⊢
          subst hi
          exact ⟨r', rfl, g2, g3⟩
        | succ i => simpa using h3 i r0 (by simpa using hi)
  obtain ⟨m, g1, g2, g3⟩ := hm
  refine ⟨m, ?_, ⟨by rw [g2, h2], ?_⟩, ?_⟩
  · show (takeIdx rows perm >>= fun rs => rs.mapM fun r => takeIdx r perm) = _
    rw [h1]; exact g1
  · intro r hr
    obtain ⟨i, hi⟩ := List.mem_iff_getElem?.1 hr
    have hilt : i < rs.length := by rw [← g2]; exact (List.getElem?_eq_some_iff.1 hi).1
    obtain ⟨r', e1, e2, -⟩ := g3 i _ (List.getElem?_eq_getElem hilt)
    rw [hi] at e1
    cases e1
    exact e2
  · intro i j k l hi hj
    have hilt : i < rs.length := by rw [h2]; exact (List.getElem?_eq_some_iff.1 hi).1
    obtain ⟨r', e1, e2, e3⟩ := g3 i _ (List.getElem?_eq_getElem hilt)
    unfold entry
    rw [e1, ← h3 i k hi, List.getElem?_eq_getElem hilt]
    exact e3 j l hj

theorem permutation_spec (obs observables : List P) (h : ∀ o ∈ observables, o ∈ obs) :
    permutation obs observables = .ok (observables.map fun o => obs.idxOf o) := by
  unfold permutation
  apply mapM_ok_map
  intro o ho
  rw [if_pos (h o ho)]

/-- Position of an observable in a list without repetitions. -/
theorem idxOf_eq_of_getElem? {obs : List P} (hn : obs.Nodup) {k : Nat} {o : P}
    (h : obs[k]? = some o) : obs.idxOf o = k := by
  obtain ⟨hk, rfl⟩ := List.getElem?_eq_some_iff.1 h
  exact hn.idxOf_getElem k hk

/-- **C49.** `SMCovariance.load_dict` with at least two (or no) observables: for a file whose
observables (in any order, possibly more than needed) come with a square matrix, the entry for the
`i`-th and `j`-th observable of the object is the file's entry for the same two observables. -/
theorem C49_sm_load_reorders (observables obs : List P) (hn : obs.Nodup) (rows : List (List V))
    (hs : IsSquare obs.length rows) (h : ∀ o ∈ observables, o ∈ obs) (h1 : observables.length ≠ 1) :
    ∃ m, smLoadDict observables obs (.mat rows) = .ok (.mat m) ∧ IsSquare observables.length m ∧
      ∀ (i j k l : Nat) (o o' : P), observables[i]? = some o → observables[j]? = some o' →
        obs[k]? = some o → obs[l]? = some o' → entry m i j = entry rows k l := by
  obtain ⟨m, g1, g2, g3⟩ := permute2_spec rows _ hs (observables.map fun o => obs.idxOf o) (by
    intro k hk
    simp only [List.mem_map] at hk
    obtain ⟨o, ho, rfl⟩ := hk
    exact List.idxOf_lt_length_iff.2 (h o ho))
  refine ⟨m, ?_, by simpa using g2, ?_⟩
  · unfold smLoadDict
    rw [permutation_spec obs observables h, ok_bind_eq, if_neg (by simpa using h1), g1]
    rfl
  · intro i j k l o o' hi hj hk hl
    apply g3
    · rw [List.getElem?_map, hi]; simp [idxOf_eq_of_getElem? hn hk]
    · rw [List.getElem?_map, hj]; simp [idxOf_eq_of_getElem? hn hl]

/-- **C49.** ... and with one observable the stored number is the file's variance of it. -/
theorem C49_sm_load_single (o : P) (obs : List P) (hn : obs.Nodup) (rows : List (List V))
    (hs : IsSquare obs.length rows) (k : Nat) (hk : obs[k]? = some o) :
    (∃ v, entry rows k k = some v ∧ smLoadDict [o] obs (.mat rows) = .ok (.scalar v)) ∧
    ∀ v : V, smLoadDict [o] obs (.scalar v) = .ok (.scalar v) := by
  have ho : ∀ o' ∈ [o], o' ∈ obs := by
    intro o' h'
    rw [List.mem_singleton] at h'
    subst h'
    exact List.mem_iff_getElem?.2 ⟨k, hk⟩
  have hp := permutation_spec obs [o] ho
  have hidx := idxOf_eq_of_getElem? hn hk
  have hklt : k < obs.length := (List.getElem?_eq_some_iff.1 hk).1
  constructor
  · obtain ⟨m, g1, g2, g3⟩ := permute2_spec rows _ hs [k] (by simpa using hklt)
    have he := g3 0 0 k k rfl rfl
    obtain ⟨hl, hr⟩ := g2
    match m, hl with
    | [r], _ =>
      have := hr r (by simp)
      match r, this with
      | [v], _ =>
        refine ⟨v, by rw [← he]; rfl, ?_⟩
        unfold smLoadDict
        rw [hp, ok_bind_eq]
        simp only [List.map_cons, List.map_nil, hidx, List.length_singleton, if_true]
        rw [g1]
        rfl
  · intro v
    unfold smLoadDict
    rw [hp]
    rfl

/-- **C49.** A missing observable raises `ValueError`, and the stored value is not touched (see
`covStep`). -/
theorem C49_missing_raises (observables obs : List P) (o : P) (h1 : o ∈ observables) (h2 : o ∉ obs)
    (cov central : NArr V) :
    smLoadDict observables obs cov = .error .valueError ∧
    expLoadDict observables obs central cov = .error .valueError := by
  have : permutation obs observables = .error .valueError := by
    unfold permutation
    induction observables with
    | nil => simp at h1
    | cons x l ih =>
      rw [List.mapM_cons]
      by_cases hx : x ∈ obs
      · rcases List.mem_cons.1 h1 with rfl | h1
        · exact absurd hx h2
        · rw [if_pos hx, ih h1]; rfl
      · rw [if_neg hx]; rfl
  unfold smLoadDict expLoadDict
  rw [this]
  exact ⟨rfl, rfl⟩

/-- **C49.** `MeasurementCovariance.load_dict`: central values and covariance are reordered
consistently. -/
theorem C49_exp_load_reorders (observables obs : List P) (hn : obs.Nodup) (central : List V)
    (hc : central.length = obs.length) (rows : List (List V))
    (hs : IsSquare obs.length rows) (h : ∀ o ∈ observables, o ∈ obs) :
    ∃ c m, expLoadDict observables obs (.vec central) (.mat rows) = .ok (.vec c, .mat m) ∧
      c.length = observables.length ∧ IsSquare observables.length m ∧
      (∀ (i k : Nat) (o : P), observables[i]? = some o → obs[k]? = some o → c[i]? = central[k]?) ∧
      ∀ (i j k l : Nat) (o o' : P), observables[i]? = some o → observables[j]? = some o' →
        obs[k]? = some o → obs[l]? = some o' → entry m i j = entry rows k l := by
  have hlt : ∀ k ∈ observables.map (fun o => obs.idxOf o), k < obs.length := by
    intro k hk
    simp only [List.mem_map] at hk
    obtain ⟨o, ho, rfl⟩ := hk
    exact List.idxOf_lt_length_iff.2 (h o ho)
  obtain ⟨m, g1, g2, g3⟩ := permute2_spec rows _ hs _ hlt
  obtain ⟨c, f1, f2, f3⟩ := takeIdx_spec central _ (fun k hk => by rw [hc]; exact hlt k hk)
  refine ⟨c, m, ?_, by simpa using f2, by simpa using g2, ?_, ?_⟩
  · unfold expLoadDict
    rw [permutation_spec obs observables h, ok_bind_eq]
    show (takeIdx central _ >>= fun c => _) = _
    rw [f1, ok_bind_eq, g1]
    rfl
  · intro i k o hi hk
    apply f3
    rw [List.getElem?_map, hi]; simp [idxOf_eq_of_getElem? hn hk]
  · intro i j k l o o' hi hj hk hl
    apply g3
    · rw [List.getElem?_map, hi]; simp [idxOf_eq_of_getElem? hn hk]
    · rw [List.getElem?_map, hj]; simp [idxOf_eq_of_getElem? hn hl]

theorem getElem?_inj_of_entries {n : Nat} {m m' : List (List V)} (h : IsSquare n m)
    (h' : IsSquare n m') (he : ∀ i j, i < n → j < n → entry m i j = entry m' i j) : m = m' := by
  apply List.ext_getElem
  · rw [h.1, h'.1]
  · intro i hi hi'
    have l1 := h.2 _ (List.getElem_mem hi)
    have l2 := h'.2 _ (List.getElem_mem hi')
    apply List.ext_getElem
    · rw [l1, l2]
    · intro j hj hj'
      have := he i j (by rw [← h.1]; exact hi) (by rw [← l1]; exact hj)
      unfold entry at this
      rw [List.getElem?_eq_getElem hi, List.getElem?_eq_getElem hi'] at this
      simpa [List.getElem?_eq_getElem hj, List.getElem?_eq_getElem hj'] using this

/-- **C49.** Saving and loading into an object with the same observables restores the matrix. -/
theorem C49_sm_save_load_same (obs : List P) (hn : obs.Nodup) (h1 : obs.length ≠ 1)
    (rows : List (List V)) (hs : IsSquare obs.length rows) :
    smLoadDict obs obs (.mat rows) = .ok (.mat rows) := by
  obtain ⟨m, g1, g2, g3⟩ := C49_sm_load_reorders obs obs hn rows hs (fun _ h => h) h1
  have : m = rows := by
    apply getElem?_inj_of_entries g2 hs
    intro i j hi hj
    exact g3 i j i j _ _ (List.getElem?_eq_getElem hi) (List.getElem?_eq_getElem hj)
      (List.getElem?_eq_getElem hi) (List.getElem?_eq_getElem hj)
  rw [g1, this]

/-- **C49 has a gap in `MeasurementCovariance.load_dict`**: a scalar central value is stored
unchecked, so a file with a scalar central value and any covariance array is taken as it is; and a
one-observable selection of a larger file is stored as arrays of length one (not as numbers, unlike
`SMCovariance`). -/
theorem C49_exp_single_not_scalar (o o' : P) (hne : o ≠ o') (c c' v00 v01 v10 v11 : V) :
    expLoadDict [o] [o', o] (.vec [c', c]) (.mat [[v00, v01], [v10, v11]]) =
      .ok (.vec [c], .mat [[v11]]) ∧
    smLoadDict [o] [o', o] (.mat [[v00, v01], [v10, v11]]) = .ok (.scalar v11) := by
  have hp : permutation [o', o] [o] = .ok [1] := by
    rw [permutation_spec _ _ (by simp)]
    have : (o' == o) = false := by simpa using hne.symm
    simp [List.idxOf_cons, this]
  unfold expLoadDict smLoadDict
  rw [hp]
  exact ⟨rfl, rfl⟩

example : smLoadDict ["c", "a"] ["a", "b", "c"] (.mat [[1, 2, 3], [4, 5, 6], [7, 8, 9]]) =
    .ok (.mat [[9, 7], [3, 1]]) ∧
    expLoadDict ["c", "a"] ["a", "b", "c"] (.vec [10, 20, 30]) (.mat [[1, 2, 3], [4, 5, 6], [7, 8, 9]])
      = .ok (.vec [30, 10], .mat [[9, 7], [3, 1]]) ∧
    IsSquare 3 [[1, 2, 3], [4, 5, 6], [7, 8, 9]] :=
  ⟨by decide +kernel, by decide +kernel, rfl, by decide⟩

/-! ## C50 -/

/-- The value put in place by the `k`-th call of a history (`none`: the call leaves it alone), given
whether there was a value before. (Specification.) -/
def stored {C : Type} (compute : Nat → Nat → Except PyErr C) (k : Nat) (had : Bool) :
    CovOp C → Option C
  | .get N force => if had && !force then none else (compute k N).toOption
  | .save => none
  | .load r => r.toOption

/-- Value in place after a history: that of the last call that stored one. (Specification.) -/
def lastStored {C : Type} (compute : Nat → Nat → Except PyErr C) (k : Nat) :
    Option C → List (CovOp C) → Option C
  | cur, [] => cur
  | cur, op :: ops => lastStored compute (k + 1)
      (match stored compute k cur.isSome op with | some c => some c | none => cur) ops

theorem covRun_fst {C : Type} (compute : Nat → Nat → Except PyErr C) (dflt k : Nat) (s : Option C)
    (ops : List (CovOp C)) : (covRun compute dflt k s ops).1 = lastStored compute k s ops := by
  induction ops generalizing k s with
  | nil => rfl
  | cons op ops ih =>
    show (covRun compute dflt (k + 1) (covStep compute dflt k s op).1 ops).1 = _
    rw [ih]
    show _ = lastStored compute (k + 1) _ ops
    congr 1
    cases op with
    | get N force =>
      cases s with
      | none =>
        simp only [covStep, stored, Option.isSome_none, Bool.false_and, Bool.false_eq_true, if_false]
        cases compute k N <;> rfl
      | some c =>
        cases force with
        | false => simp [covStep, stored]
        | true =>
          simp only [covStep, stored, Option.isSome_some, Bool.not_true, Bool.and_false,
            Bool.false_eq_true, if_false]
          cases compute k N <;> rfl
    | save => cases s <;> rfl
    | load r => cases r <;> rfl

theorem covRun_append {C : Type} (compute : Nat → Nat → Except PyErr C) (dflt k : Nat)
    (s : Option C) (ops : List (CovOp C)) (op : CovOp C) :
    (covRun compute dflt k s (ops ++ [op])).2 = (covRun compute dflt k s ops).2 ++
      [(covStep compute dflt (k + ops.length) (covRun compute dflt k s ops).1 op).2] := by
  induction ops generalizing k s with
  | nil => rfl
  | cons o ops ih =>
    show (covStep compute dflt k s o).2 :: (covRun compute dflt (k + 1) _ (ops ++ [op])).2 = _
    rw [ih]
    show _ = (covStep compute dflt k s o).2 :: (covRun compute dflt (k + 1) _ ops).2 ++ _
    rw [List.cons_append]
    rw [show k + 1 + ops.length = k + (o :: ops).length by simp only [List.length_cons]; omega]
    rfl

/-- **C50.** For every history of calls on a new covariance object, a further call behaves as follows.
`get(force=False)` returns the value stored last, without computing, and warns iff `N` is not the
default; it computes iff nothing is stored.  `get(force=True)` always computes.  `save` writes the
value stored last and raises `ValueError` if there is none.  A failing `load` or computation keeps
what was stored. -/
theorem C50_cache_policy {C : Type} (compute : Nat → Nat → Except PyErr C) (dflt : Nat)
    (ops : List (CovOp C)) (op : CovOp C) :
    let cur := lastStored compute 0 none ops
    ((covRun compute dflt 0 none (ops ++ [op])).2 = (covRun compute dflt 0 none ops).2 ++
      [match op, cur with
       | .get N false, some c => .value c none (decide (N ≠ dflt))
       | .get N false, none => (match compute ops.length N with
          | .ok c => .value c (some N) false | .error e => .raised e)
       | .get N true, _ => (match compute ops.length N with
          | .ok c => .value c (some N) false | .error e => .raised e)
       | .save, some c => .saved c
       | .save, none => .raised .valueError
       | .load (.ok _), _ => .loaded
       | .load (.error e), _ => .raised e]) := by
  intro cur
  rw [covRun_append, covRun_fst, Nat.zero_add]
  congr 2
  show (covStep compute dflt ops.length cur op).2 = _
  cases op with
  | get N force =>
    cases hc : cur <;> cases force <;> simp only [covStep] <;>
      first | rfl | (cases compute ops.length N <;> rfl)
  | save => cases hc : cur <;> rfl
  | load r => cases r <;> rfl

/-- **C50.** What is stored: nothing on a new object; afterwards the last successfully computed or
loaded value. -/
theorem C50_stored {C : Type} (compute : Nat → Nat → Except PyErr C) (ops : List (CovOp C))
    (op : CovOp C) :
    lastStored compute 0 none ([] : List (CovOp C)) = none ∧
    lastStored compute 0 none (ops ++ [op]) =
      (match stored compute ops.length (lastStored compute 0 none ops).isSome op with
       | some c => some c
       | none => lastStored compute 0 none ops) := by
  refine ⟨rfl, ?_⟩
  suffices H : ∀ (ops : List (CovOp C)) (k : Nat) (cur : Option C),
      lastStored compute k cur (ops ++ [op]) =
      (match stored compute (k + ops.length) (lastStored compute k cur ops).isSome op with
       | some c => some c
       | none => lastStored compute k cur ops) by
    simpa using H ops 0 none
  intro ops
  induction ops with
  | nil => intro k cur; rfl
  | cons o ops ih =>
    intro k cur
    show lastStored compute (k + 1) _ (ops ++ [op]) = _
    rw [ih]
    rw [show k + (o :: ops).length = k + 1 + ops.length by
      simp only [List.length_cons]; omega]
    rfl

example : (covRun (fun k N => .ok (100 * k + N)) 100 0 none
    [.save, .get 5 false, .get 6 false, .get 100 false, .get 7 true, .save, .load (.ok 3),
     .load (.error .valueError), .get 100 false]).2 =
    [.raised .valueError, .value 105 (some 5) false, .value 105 none true, .value 105 none false,
     .value 407 (some 7) false, .saved 407, .loaded, .raised .valueError, .value 3 none false] := rfl

/-! ## C51 -/

/-- Every pseudo-measurement's name is recognised. -/
theorem isPseudo_pseudoName (n : String) : isPseudo (pseudoName n) = true := by
  rw [isPseudo_iff]
  refine ⟨" for FastLikelihood instance: ".toList ++ n.toList, ?_, Or.inr rfl⟩
  unfold pseudoName
  rw [String.toList_append, ← List.append_assoc]
  rfl

theorem pseudoName_inj {n m : String} (h : pseudoName n = pseudoName m) : n = m := by
  unfold pseudoName at h
  rw [← String.toList_inj, String.toList_append, String.toList_append] at h
  exact String.toList_inj.1 (List.append_cancel_left h)

/-- **C51.** `likelihood` (and `log_likelihood`) before `make_measurement` raises `ValueError`. -/
theorem C51_before_make_raises [AddCommMonoid L] (f : R → PdfArg V → Except PyErr L)
    (ord : List String → List String) (reg : Reg P R) (fl : Fast P) (h : fl.made = false)
    (pred : P → Option V) (ex : Option (List P)) :
    fastLikelihood fl = .error .valueError ∧
    fastLogLikelihood f ord reg fl pred ex = .error .valueError := by
  unfold fastLogLikelihood fastLikelihood
  rw [h]
  exact ⟨rfl, rfl⟩

/-- **C51.** Pseudo-measurements never enter an ordinary likelihood: its selection, number of
observations and log-likelihood are those of the registry without any pseudo-measurement ... -/
theorem C51_ordinary_ignores_pseudo (ord : List String → List String) (reg : Reg P R) (a : MLArgs P)
    (ha : a.pseudo = false) :
    getMeasurements ord reg a =
      getMeasurements ord (reg.filter fun e => !isPseudo e.1) a := by
  have : allMeasurements reg a = allMeasurements (reg.filter fun e => !isPseudo e.1) a := by
    unfold allMeasurements
    rw [List.filter_filter]
    congr 1
    apply List.filter_congr
    intro e _
    rw [ha]
    cases isPseudo e.1 <;> simp
  unfold getMeasurements
  rw [this]

theorem keys_filter_set_pseudo (reg : Reg P R) (n : String) (s : CState P R)
    (h : isPseudo n = true) :
    (reg.set n s).filter (fun e => !isPseudo e.1) = reg.filter fun e => !isPseudo e.1 := by
  induction reg with
  | nil => simp [Dict.set, h]
  | cons e reg ih =>
    obtain ⟨k, v⟩ := e
    unfold Dict.set
    by_cases hk : k = n
    · subst hk
      rw [if_pos rfl]
      simp [List.filter_cons, h]
    · rw [if_neg hk, List.filter_cons, List.filter_cons, ih]

theorem get?_filter_notPseudo (reg : Reg P R) (n : String) (h : isPseudo n = false) :
    (Dict.get? (reg.filter fun e => !isPseudo e.1) n) = reg.get? n := by
  induction reg with
  | nil => rfl
  | cons e reg ih =>
    obtain ⟨k, v⟩ := e
    rw [List.filter_cons, Dict.get?_cons]
    by_cases hk : k = n
    · subst hk; simp [h, Dict.get?_cons]
    · rw [if_neg hk]
      split
      · rw [Dict.get?_cons, if_neg hk, ih]
      · exact ih

/-- ... so `make_measurement` of any `FastLikelihood` leaves the log-likelihood, the number of
observations and the selection of every ordinary likelihood unchanged. -/
theorem C51_make_does_not_disturb [AddCommMonoid L] (f : R → PdfArg V → Except PyErr L)
    (ord : List String → List String) (hord : ∀ l n, n ∈ ord l → n ∈ l) (reg : Reg P R)
    (a : MLArgs P) (ha : a.pseudo = false) (fl : Fast P) (c : R) (pred : P → Option V)
    (ex : Option (List P)) :
    getMeasurements ord (makeMeasurement ord reg fl c).1 a = getMeasurements ord reg a ∧
    logLikelihoodPred f ord (makeMeasurement ord reg fl c).1 a pred ex =
      logLikelihoodPred f ord reg a pred ex ∧
    getNumberObservations ord (makeMeasurement ord reg fl c).1 a ex =
      getNumberObservations ord reg a ex := by
  have hreg : (makeMeasurement ord reg fl c).1 = reg.set (pseudoName fl.name)
      (addConstraint CState.init fl.observables c) := rfl
  rw [hreg]
  have hsel : getMeasurements ord (reg.set (pseudoName fl.name)
      (addConstraint CState.init fl.observables c)) a = getMeasurements ord reg a := by
    rw [C51_ordinary_ignores_pseudo ord _ a ha, C51_ordinary_ignores_pseudo ord reg a ha,
      keys_filter_set_pseudo _ _ _ (isPseudo_pseudoName _)]
  have hnp : ∀ n ∈ getMeasurements ord reg a, isPseudo n = false := by
    intro n hn
    have : n ∈ allMeasurements reg a := by
      unfold getMeasurements at hn
      revert hn
      cases a.exclude <;> cases a.include_ <;> intro hn
      · exact hn
      · exact (List.mem_filter.1 (hord _ _ hn)).1
      · exact (List.mem_filter.1 (hord _ _ hn)).1
      · exact (List.mem_filter.1 (hord _ _ hn)).1
    unfold allMeasurements at this
    simp only [ha, List.mem_map, List.mem_filter, Bool.not_false, Bool.and_true, Bool.and_eq_true,
      Bool.not_eq_true', Prod.exists] at this
    obtain ⟨k, s, ⟨-, h, -⟩, rfl⟩ := this
    exact h
  have hget : ∀ n ∈ getMeasurements ord reg a,
      (reg.set (pseudoName fl.name) (addConstraint CState.init fl.observables c)).getItem n =
        reg.getItem n := by
    intro n hn
    unfold Dict.getItem
    rw [Dict.get?_set_ne]
    intro he
    have := hnp n hn
    rw [← he, isPseudo_pseudoName] at this
    exact absurd this (by simp)
  refine ⟨hsel, ?_, ?_⟩
  · unfold logLikelihoodPred
    rw [hsel]
    generalize getMeasurements ord reg a = l at hget
    generalize (0 : L) = acc
    induction l generalizing acc with
    | nil => rfl
    | cons n l ih =>
      rw [List.foldlM_cons, List.foldlM_cons]
      have : llStep f (reg.set (pseudoName fl.name) (addConstraint CState.init fl.observables c)) a
          pred ex acc n = llStep f reg a pred ex acc n := by
        unfold llStep
        rw [hget n (by simp)]
      rw [this]
      congr 1
      funext b
      exact ih (fun m hm => hget m (by simp [hm])) b
  · unfold getNumberObservations
    rw [hsel]
    generalize getMeasurements ord reg a = l at hget
    generalize 0 = acc
    induction l generalizing acc with
    | nil => rfl
    | cons n l ih =>
      rw [List.foldlM_cons, List.foldlM_cons, hget n (by simp)]
      congr 1
      funext b
      exact ih (fun m hm => hget m (by simp [hm])) b

/-- The call does not replace, change or delete the measurement `n`. (Specification.) -/
def RegOp.spares (op : RegOp P R) (n : String) : Prop :=
  match op with
  | .create m => m ≠ n
  | .call m _ => m ≠ n
  | .del m => m ≠ n
  | .fast fl _ => pseudoName fl.name ≠ n

theorem get?_regStep_spares (reg : Reg P R) (op : RegOp P R) (n : String) (h : op.spares n) :
    (regStep reg op).get? n = reg.get? n := by
  cases op with
  | create m => exact Dict.get?_set_ne _ _ h
  | call m o =>
    show Dict.get? (regCall reg m o) n = _
    unfold regCall
    cases hm : reg.get? m with
    | none => rfl
    | some s => exact Dict.get?_set_ne _ _ h
  | del m =>
    unfold regStep
    rw [Dict.get?_erase]
    have : ¬ m = n := h
    simp [this, Ne.symm this]
  | fast fl c => exact Dict.get?_set_ne _ _ h

theorem get?_foldl_spares (reg : Reg P R) (ops : List (RegOp P R)) (n : String)
    (h : ∀ op ∈ ops, op.spares n) : (ops.foldl regStep reg).get? n = reg.get? n := by
  induction ops generalizing reg with
  | nil => rfl
  | cons op ops ih =>
    rw [List.foldl_cons, ih _ (fun o ho => h o (by simp [ho])),
      get?_regStep_spares _ _ _ (h op (by simp))]

theorem wf_regStep (reg : Reg P R) (wf : reg.WF) (op : RegOp P R) : (regStep reg op).WF := by
  cases op with
  | create m => exact Dict.wf_set wf _ _
  | call m o =>
    show (regCall reg m o).WF
    unfold regCall
    cases hm : reg.get? m with
    | none => exact wf
    | some s => exact Dict.wf_set wf _ _
  | del m => exact Dict.wf_erase wf _
  | fast fl c => exact Dict.wf_set wf _ _

theorem wf_foldl_regStep (reg : Reg P R) (wf : reg.WF) (ops : List (RegOp P R)) :
    (ops.foldl regStep reg).WF := by
  induction ops generalizing reg with
  | nil => exact wf
  | cons op ops ih => rw [List.foldl_cons]; exact ih _ (wf_regStep _ wf op)

theorem fast_measurements (ord : List String → List String) (hord : IsSetOrder ord) (reg : Reg P R)
    (wf : reg.WF) (fl : Fast P) (s : CState P R) (hg : reg.get? (pseudoName fl.name) = some s)
    (hs : ∃ o ∈ fl.observables, o ∈ allParameters s) :
    getMeasurements ord reg (fastArgs fl) = [pseudoName fl.name] := by
  have hlist : (allMeasurements reg (fastArgs fl)).filter
      (fun n => decide (n ∈ [pseudoName fl.name])) = [pseudoName fl.name] := by
    have hnd : ((allMeasurements reg (fastArgs fl)).filter
        (fun n => decide (n ∈ [pseudoName fl.name]))).Nodup := by
      apply List.Nodup.filter
      unfold allMeasurements
      unfold Dict.WF Dict.keys at wf
      exact wf.sublist (List.Sublist.map _ List.filter_sublist)
    have hmem : ∀ n, n ∈ (allMeasurements reg (fastArgs fl)).filter
        (fun n => decide (n ∈ [pseudoName fl.name])) ↔ n = pseudoName fl.name := by
      intro n
      rw [List.mem_filter, decide_eq_true_eq, List.mem_singleton]
      constructor
      · exact fun h => h.2
      · rintro rfl
        refine ⟨?_, rfl⟩
        unfold allMeasurements fastArgs
        simp only [List.mem_map, List.mem_filter, Bool.not_true, Bool.and_false, Bool.not_false,
          Bool.true_and, List.any_eq_true, decide_eq_true_eq]
        refine ⟨_, ⟨Dict.mem_of_get? hg, ?_⟩, rfl⟩
        obtain ⟨o, h1, h2⟩ := hs
        exact ⟨o, h2, h1⟩
    have hp := (List.perm_ext_iff_of_nodup hnd (List.nodup_singleton (pseudoName fl.name))).2
      (by simpa using hmem)
    exact List.perm_singleton.1 hp
  show ord ((allMeasurements reg (fastArgs fl)).filter _) = _
  rw [hlist]
  exact List.perm_singleton.1 (hord _ (List.nodup_singleton _))

open Classical in
/-- **C51.** After `make_measurement` of a `FastLikelihood` (observables without repetition, at least
one), and after any further history of registry operations (including `make_measurement` of other
`FastLikelihood`s) that does not touch the measurement of that name, its log-likelihood is exactly the
log-PDF of the combined distribution `c` at the predictions of its (non-excluded) observables: no
other measurement contributes. -/
theorem C51_fast_uses_only_own_partial [AddCommMonoid L] (f : R → PdfArg V → Except PyErr L)
    (g : R → PdfArg V → L) (hf : ∀ c x, f c x = .ok (g c x))
    (ord : List String → List String) (hord : IsSetOrder ord) (before after : List (RegOp P R))
    (fl : Fast P) (c : R) (hn : fl.observables.Nodup) (h0 : fl.observables ≠ [])
    (hsp : ∀ op ∈ after, op.spares (pseudoName fl.name)) (pred : P → Option V) (val : P → V)
    (ex : Option (List P)) (hv : ∀ o ∈ fl.observables, o ∉ ex.getD [] → pred o = some (val o)) :
    ∃ fl', (makeMeasurement ord (regRun before) fl c).2 = .ok fl' ∧
      getMeasurements ord (after.foldl regStep (makeMeasurement ord (regRun before) fl c).1)
        (fastArgs fl') = [pseudoName fl.name] ∧
      fastLogLikelihood f ord (after.foldl regStep (makeMeasurement ord (regRun before) fl c).1) fl'
        pred ex =
        .ok (if fl.observables.filter (fun o => decide (o ∉ ex.getD [])) = [] then 0 else
          g c (intendedArg val fl.observables
            (fl.observables.filter fun o => decide (o ∉ ex.getD [])))) := by
  have hs1 : (makePseudo (regRun before) fl c).get? (pseudoName fl.name) =
      some (run [.add fl.observables c]) := by
    unfold makePseudo
    rw [Dict.get?_set_self]
    rfl
  have hcon : ∀ o ∈ fl.observables, Constrained [Op.add fl.observables c] o := by
    intro o ho
    rw [← mem_keys_run, ← Dict.get?_isSome_iff]
    show (Dict.get? (addConstraint CState.init fl.observables c).parameters o).isSome = true
    rw [get?_addConstraint]
    obtain ⟨i, hi⟩ := Option.isSome_iff_exists.1 ((lastIdx_isSome_iff fl.observables o).2 ho)
    rw [hi]; rfl
  have hwf0 : (regRun before).WF := wf_foldl_regStep _ Dict.wf_nil before
  have hwf1 : (makePseudo (regRun before) fl c).WF := Dict.wf_set hwf0 _ _
  obtain ⟨o0, ho0⟩ := List.exists_mem_of_ne_nil _ h0
  have hinit : mlInit ord (makePseudo (regRun before) fl c) (fastArgs fl) = .ok () := by
    unfold mlInit
    rw [fast_measurements ord hord _ hwf1 fl _ hs1
      ⟨o0, ho0, (mem_keys_run _ _).2 (hcon o0 ho0)⟩]
    rw [if_neg (by simp [truthy, fastArgs])]
    rw [List.mapM_cons, List.mapM_nil]
    unfold Dict.getItem
    rw [hs1]
    show (if (fastArgs fl).observables.all _ then _ else _) = _
    rw [if_pos]
    rw [List.all_eq_true]
    intro o ho
    rw [decide_eq_true_eq]
    have := (mem_keys_run _ _).2 (hcon o ho)
    simpa [allParameters] using this
  refine ⟨{ fl with made := true }, ?_, ?_, ?_⟩
  · unfold makeMeasurement
    simp only [hinit]
    rfl
  · have hg := get?_foldl_spares (makePseudo (regRun before) fl c) after _ hsp
    rw [hs1] at hg
    exact fast_measurements ord hord _ (wf_foldl_regStep _ hwf1 after) { fl with made := true } _ hg
      ⟨o0, ho0, (mem_keys_run _ _).2 (hcon o0 ho0)⟩
  · have hg := get?_foldl_spares (makePseudo (regRun before) fl c) after _ hsp
    rw [hs1] at hg
    have hgm := fast_measurements ord hord _ (wf_foldl_regStep _ hwf1 after) { fl with made := true } _
      hg ⟨o0, ho0, (mem_keys_run _ _).2 (hcon o0 ho0)⟩
    show logLikelihoodPred f ord (after.foldl regStep (makePseudo (regRun before) fl c))
      (fastArgs { fl with made := true }) pred ex = _
    unfold logLikelihoodPred
    rw [hgm]
    rw [List.foldlM_cons]
    have hprop : Proper [Op.add fl.observables c] :=
      ⟨by simp [adds], by simpa [adds] using hn⟩
    have hH : Dict.WF ([(pseudoName fl.name, [Op.add fl.observables c])] : Hist P R) := by
      simp [Dict.WF, Dict.keys]
    have hstep : llStep f (after.foldl regStep (makePseudo (regRun before) fl c))
        (fastArgs { fl with made := true }) pred ex 0 (pseudoName fl.name) =
        llStep f (objs [(pseudoName fl.name, [Op.add fl.observables c])])
          (fastArgs { fl with made := true }) pred ex 0 (pseudoName fl.name) := by
      unfold llStep
      have e1 : (objs [(pseudoName fl.name, [Op.add fl.observables c])]).getItem
          (pseudoName fl.name) = .ok (run [.add fl.observables c]) :=
        getItem_objs hH (by simp)
      rw [e1]
      unfold Dict.getItem
      rw [hg]
    show (llStep f _ _ pred ex 0 (pseudoName fl.name) >>= _) = _
    rw [hstep, llStep_eq f g hH _ pred val ex (List.mem_singleton.2 rfl) hprop
      (fun p h1 h2 _ => hv p h1 h2) (fun e _ _ => hf _ _)]
    rw [ok_bind_eq, zero_add]
    have hinf : ∀ o ∈ fl.observables, ∃ i, InForce [Op.add fl.observables c] o i c := by
      intro o ho
      obtain ⟨i, c', hi⟩ := hcon o ho
      obtain ⟨ps, hm, -⟩ := hi.mem_adds
      simp only [adds, List.mem_singleton, Prod.mk.injEq] at hm
      rw [hm.1] at hi
      exact ⟨i, hi⟩
    have hrel : relevant (fastArgs { fl with made := true }) (ex.getD []) [Op.add fl.observables c] c
        fl.observables = fl.observables.filter fun o => decide (o ∉ ex.getD []) := by
      unfold relevant
      apply List.filter_congr
      intro o ho
      rw [decide_eq_decide]
      exact ⟨fun h => h.2.1, fun h => ⟨ho, h, hinf o ho⟩⟩
    unfold measurementLL
    simp only [adds, List.filter_cons, List.filter_nil, hrel]
    by_cases he : fl.observables.filter (fun o => decide (o ∉ ex.getD [])) = []
    · simp only [he, ne_eq, not_true_eq_false, decide_false, Bool.false_eq_true, if_false,
        List.map_nil, List.sum_nil, if_true]
      rfl
    · simp only [ne_eq, he, not_false_eq_true, decide_true, if_true, if_false, List.map_cons,
        List.map_nil, List.sum_cons, List.sum_nil, add_zero, hrel]
      rfl

/-- **C51 is false for two `FastLikelihood`s of the same name**: the pseudo-measurement is looked up
by name, so the second one's `make_measurement` changes the first one's likelihood. -/
theorem C51_same_name_interferes :
    let fl : Fast String := ⟨"A", ["o"], false⟩
    let r1 := makeMeasurement id ([] : Reg String Nat) fl 1
    let r2 := makeMeasurement id r1.1 fl 2
    let ll (reg : Reg String Nat) := fastLogLikelihood (L := Int)
      (fun (c : Nat) (a : PdfArg Int) => match a with | .scalar x => .ok (c * x) | _ => .ok 0) id reg
      { fl with made := true } (fun _ => some 7) none
    ll r1.1 = .ok 7 ∧ ll r2.1 = .ok 14 := by
  decide +kernel

/-! Non-vacuity of C51. -/
example : (∀ op ∈ ([.create "m", .call "m" (.add ["o"] 5), .fast ⟨"B", ["o"], false⟩ 6] :
      List (RegOp String Nat)), op.spares (pseudoName "A")) ∧
    fastLogLikelihood (L := Int)
      (fun (c : Nat) (a : PdfArg Int) => match a with
        | .scalar x => .ok (c * x) | .vec xs _ => .ok (xs.sum)) id
      (([.create "m", .call "m" (.add ["o"] 5), .fast ⟨"B", ["o"], false⟩ 6] :
        List (RegOp String Nat)).foldl regStep
        (makeMeasurement id (regRun [.create "m0", .call "m0" (.add ["p"] 9)]) ⟨"A", ["o", "p"], false⟩ 1).1)
      ⟨"A", ["o", "p"], true⟩ (fun p => if p = "o" then some 7 else some 3) none = .ok 10 := by
  refine ⟨?_, by decide +kernel⟩
  intro op hop
  simp only [List.mem_cons, List.not_mem_nil, or_false] at hop
  rcases hop with rfl | rfl | rfl <;> simp only [RegOp.spares] <;> decide +kernel

end Verif.Likelihood
