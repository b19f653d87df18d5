import Verif.Measurements.Corr
import Verif.Constraints.Theorems
import Verif.Parse.AllStrings
import Mathlib.Analysis.SpecialFunctions.Pow.Real
/-!
# C28: `flavio.measurements._load`

One entry of the YAML file (`m_data`), after the attributes (inspire, url, ...) have been copied.
-/
set_option linter.unusedSectionVars false
set_option linter.unusedSimpArgs false
set_option linter.unusedVariables false
namespace Verif.Measurements
open Verif.Py Verif.Constraints

/-- Observable identifiers: a string, or a tuple (name, argument values...).
(Used for `obsTuple`, /repo/flavio/measurements.py:41-48.) -/
inductive ObsId (N A : Type) where
  | plain (n : N)
  | tup (n : N) (args : List A)
  deriving DecidableEq

/-- `value_dict`: keys `name`, `value` and the argument names.
(Used for `obsTuple`, /repo/flavio/measurements.py:41-48.) -/
structure ValueDict (N A W : Type) where
  name : N
  fields : Dict String A
  value : W

variable {N A W D : Type} [DecidableEq N] [DecidableEq A]

/-- /repo/flavio/measurements.py:41-48, l.66-72 and l.27-33: the tuple `(name, arg1, arg2, ...)`.
`argsOf n` is `Observable[n].arguments` (raising if there is no such observable or no arguments). -/
def obsTuple (argsOf : N → Except PyErr (List String)) (v : ValueDict N A W) : Except PyErr (ObsId N A) := do
  let args ← argsOf v.name
  let vals ← args.mapM fun a => match v.fields.get? a with
    | some x => .ok x
    | none => .error .keyError
  .ok (.tup v.name vals)

/-- Probability distributions attached by `_load`: those made by `set_constraint`/`dict2dist`, or a
multivariate normal distribution. (Used for `Loaded`, /repo/flavio/measurements.py:21-35.) -/
inductive LDist (D : Type) where
  | base (d : D)
  | mvn (n : Nat) (central : Fin n → ℝ) (cov : Mat n ℝ)

/-- A measurement: the `Constraints` state, whose references point into the list of distribution objects
created so far. (Used for `loadMulti`, /repo/flavio/measurements.py:21-35.) -/
structure Loaded (N A D : Type) where
  state : CState (ObsId N A) Nat
  heap : List (LDist D)

/-- Create a new distribution object and call `add_constraint`.
(Used for `loadMulti`, /repo/flavio/measurements.py:21-35.) -/
def Loaded.add (m : Loaded N A D) (obs : List (ObsId N A)) (d : LDist D) : Loaded N A D :=
  ⟨addConstraint m.state obs m.heap.length, m.heap ++ [d]⟩

/-- A new `Measurement`. (Used for `loadMulti`, /repo/flavio/measurements.py:21-35.) -/
def Loaded.init : Loaded N A D := ⟨CState.init, []⟩

/-- /repo/flavio/measurements.py:21-35: branch `'observables' in m_data`.  `pd` is the convolved distribution. -/
def loadMulti (argsOf : N → Except PyErr (List String)) (obs : List (N ⊕ ValueDict N A Unit))
    (pd : Except PyErr D) : Except PyErr (Loaded N A D) := do
  let d ← pd
  let l ← obs.mapM fun
    | .inl n => .ok (.plain n)
    | .inr v => obsTuple argsOf v
  .ok (Loaded.init.add l (.base d))

/-- /repo/flavio/measurements.py:38-52: uncorrelated values in list form.  `conv` turns a value (string or dictionary)
into a distribution (`set_constraint`, see C06). -/
def loadList (argsOf : N → Except PyErr (List String)) (conv : W → Except PyErr D)
    (vs : List (ValueDict N A W)) : Except PyErr (Loaded N A D) :=
  vs.foldlM (fun m v => do
    let o ← obsTuple argsOf v
    let d ← conv v.value
    .ok (m.add [o] (.base d))) Loaded.init

/-- /repo/flavio/measurements.py:53-58: uncorrelated values in dictionary form. -/
def loadDict (conv : W → Except PyErr D) (vs : List (N × W)) : Except PyErr (Loaded N A D) :=
  vs.foldlM (fun m v => do
    let d ← conv v.2
    .ok (m.add [.plain v.1] (.base d))) Loaded.init

/-- /repo/flavio/measurements.py:75-79, l.86-90: squared total error. -/
def squaredError (e : Parse.Errors) : ℚ :=
  (e.asym.foldl (fun a p => a + p.1 * p.2) (e.sym.foldl (fun a s => a + s ^ 2) 0))

/-- `sqrt(squared_error)` with `ValueError` for a negative argument (/repo/flavio/measurements.py:80, l.91). -/
noncomputable def pySqrt (x : ℚ) : Except PyErr ℝ :=
  if x < 0 then .error .valueError else .ok (Real.sqrt (x : ℝ))

/-- One pass of the loops /repo/flavio/measurements.py:65-80, l.82-91: observable, central value and error. -/
noncomputable def corrEntry (obs : Except PyErr (ObsId N A)) (value : List Char) :
    Except PyErr (ObsId N A × ℚ × ℝ) := do
  let o ← obs
  let e ← Parse.errorsFromString value
  let s ← pySqrt (squaredError e)
  .ok (o, e.central, s)

/-- /repo/flavio/measurements.py:92-94: correlation, covariance, distribution. -/
noncomputable def corrFinish (corr : CorrArg ℝ) (es : List (ObsId N A × ℚ × ℝ)) :
    Except PyErr (Loaded N A D) := do
  let c ← fixCorr corr es.length
  .ok (Loaded.init.add (es.map (·.1)) (.mvn es.length (fun i => ((es[i].2.1 : ℚ) : ℝ))
    fun i j => es[i].2.2 * es[j].2.2 * c i j))

/-- /repo/flavio/measurements.py:59-94: correlated values, list form. (The constructor of
`MultivariateNormalDistribution` is assumed to accept the covariance.) -/
noncomputable def loadCorrList (argsOf : N → Except PyErr (List String)) (corr : CorrArg ℝ)
    (vs : List (ValueDict N A (List Char))) : Except PyErr (Loaded N A D) := do
  let es ← vs.mapM fun v => corrEntry (obsTuple argsOf v) v.value
  corrFinish corr es

/-- /repo/flavio/measurements.py:59-94: correlated values, dictionary form. -/
noncomputable def loadCorrDict (corr : CorrArg ℝ) (vs : List (N × List Char)) :
    Except PyErr (Loaded N A D) := do
  let es ← vs.mapM fun v => corrEntry (.ok (.plain v.1)) v.2
  corrFinish corr es

/-! ## Specification -/

/-- `o` is the identifier meant by a value in list form: the name, then the values of the observable's
arguments in their order. (Specification.) -/
def Meant (argsOf : N → Except PyErr (List String)) (v : ValueDict N A W) (o : ObsId N A) : Prop :=
  ∃ args vals, argsOf v.name = .ok args ∧ List.Forall₂ (fun a x => v.fields.get? a = some x) args vals ∧
    o = .tup v.name vals

/-- The measurement constrains `o` by the `i`-th component of the distribution `d`. (Specification.) -/
def Constrains (m : Loaded N A D) (o : ObsId N A) (i : Nat) (d : LDist D) : Prop :=
  ∃ r, m.state.parameters.get? o = some (i, r) ∧ m.heap[r]? = some d

/-- Quadrature sum: symmetric errors squared, asymmetric errors by the product of right and left. (Specification.) -/
def quadrature (e : Parse.Errors) : ℚ :=
  (e.sym.map fun s => s ^ 2).sum + (e.asym.map fun p => p.1 * p.2).sum

/-! ## Proofs -/

theorem bind_ok {α β : Type} {x : Except PyErr α} {f : α → Except PyErr β} {b : β}
    (h : (x >>= f) = .ok b) : ∃ a, x = .ok a ∧ f a = .ok b := Parse.bind_ok h

theorem obsTuple_ok (argsOf : N → Except PyErr (List String)) (v : ValueDict N A W) (o : ObsId N A) :
    obsTuple argsOf v = .ok o ↔ Meant argsOf v o := by
  have hm : ∀ args vals, args.mapM (fun a => match v.fields.get? a with
      | some x => Except.ok x
      | none => Except.error PyErr.keyError) = .ok vals ↔
      List.Forall₂ (fun a x => v.fields.get? a = some x) args vals := by
    intro args vals
    rw [mapM_ok_iff]
    have : (fun (a : String) (b : A) => (match v.fields.get? a with
        | some x => Except.ok x
        | none => Except.error PyErr.keyError) = Except.ok b) =
        fun a x => v.fields.get? a = some x := by
      funext a b
      cases v.fields.get? a <;> simp
    rw [this]
  constructor
  · intro h
    obtain ⟨args, h1, h⟩ := bind_ok h
    obtain ⟨vals, h2, h⟩ := bind_ok h
    injection h with h
    exact ⟨args, vals, h1, (hm _ _).1 h2, h.symm⟩
  · rintro ⟨args, vals, h1, h2, rfl⟩
    unfold obsTuple
    rw [h1]
    show (do let vals ← args.mapM _; Except.ok _ : Except PyErr _) = _
    rw [(hm _ _).2 h2]
    rfl

/-- Histories of one-observable `add_constraint` calls. (Specification.) -/
def hist (obs : List (ObsId N A)) (k : Nat) : List (Op (ObsId N A) Nat) :=
  (obs.zipIdx k).map fun e => .add [e.1] e.2

theorem fold_hist (obs : List (ObsId N A)) (ds : List D) (hlen : obs.length = ds.length)
    (m : Loaded N A D) : ((obs.zip ds).foldl (fun m e => m.add [e.1] (.base e.2)) m) =
      ⟨(hist obs m.heap.length).foldl step m.state, m.heap ++ ds.map .base⟩ := by
  induction obs generalizing ds m with
  | nil =>
    cases ds with
    | nil => simp [hist]
    | cons => simp at hlen
  | cons o obs ih =>
    cases ds with
    | nil => simp at hlen
    | cons d ds =>
      simp only [List.zip_cons_cons, List.foldl_cons]
      rw [ih ds (by simpa using hlen)]
      simp [Loaded.add, hist, step, List.zipIdx_cons]

theorem foldlM_entries {E : Type} (f : E → Except PyErr (ObsId N A × D)) (vs : List E)
    (m0 : Loaded N A D) (m : Loaded N A D) :
    vs.foldlM (fun m v => do let p ← f v; .ok (m.add [p.1] (.base p.2))) m0 = .ok m ↔
      ∃ ps, List.Forall₂ (fun v p => f v = .ok p) vs ps ∧
        m = ps.foldl (fun m e => m.add [e.1] (.base e.2)) m0 := by
  induction vs generalizing m0 with
  | nil =>
    constructor
    · intro h; injection h with h; exact ⟨[], .nil, h.symm⟩
    · rintro ⟨ps, h, rfl⟩; cases h; rfl
  | cons v vs ih =>
    rw [List.foldlM_cons]
    constructor
    · intro h
      obtain ⟨m1, h1, h⟩ := bind_ok h
      obtain ⟨p, hp, h1⟩ := bind_ok h1
      injection h1 with h1
      subst h1
      obtain ⟨ps, h2, rfl⟩ := (ih _).1 h
      exact ⟨p :: ps, .cons hp h2, rfl⟩
    · rintro ⟨ps, h, rfl⟩
      cases h with
      | cons hp h2 =>
        rw [hp]
        exact (ih _).2 ⟨_, h2, rfl⟩

theorem named_hist (obs : List (ObsId N A)) (k : Nat) :
    named (hist obs k) = obs := by
  induction obs generalizing k with
  | nil => rfl
  | cons o obs ih =>
    have := ih (k + 1)
    simp only [hist, List.zipIdx_cons, List.map_cons, named] at *
    rw [this]; rfl

theorem lastOccs_nodup {P : Type} [DecidableEq P] {l : List P} (h : l.Nodup) : lastOccs l = l := by
  induction l with
  | nil => rfl
  | cons a l ih =>
    rw [List.nodup_cons] at h
    simp [lastOccs, h.1, ih h.2]

theorem inForce_hist (obs : List (ObsId N A)) (k : Nat) (o : ObsId N A) (hk : obs[k]? = some o)
    (hlast : ∀ j, k < j → obs[j]? ≠ some o) : InForce (hist obs 0) o 0 k := by
  have hlt : k < obs.length := by
    by_contra hc
    rw [List.getElem?_eq_none (by omega)] at hk; cases hk
  have hz : (obs.zipIdx 0)[k]? = some (o, k) := by simp [List.getElem?_zipIdx, hk]
  have hsplit : hist obs 0 = ((obs.zipIdx 0).take k).map (fun e => Op.add [e.1] e.2) ++
      Op.add [o] k :: ((obs.zipIdx 0).drop (k + 1)).map (fun e => Op.add [e.1] e.2) := by
    unfold hist
    conv_lhs => rw [← List.take_append_drop k (obs.zipIdx 0)]
    rw [List.map_append, List.drop_eq_getElem_cons (by simpa using hlt), List.map_cons]
    have : (obs.zipIdx 0)[k]'(by simpa using hlt) = (o, k) := by
      have := List.getElem?_eq_getElem (l := obs.zipIdx 0) (i := k) (by simpa using hlt)
      rw [hz] at this; injection this with this; exact this.symm
    rw [this]
  refine ⟨_, [o], _, hsplit, rfl, ?_, ?_⟩
  · intro j hj
    rw [List.getElem?_eq_none (by simp; omega)]; simp
  · intro op hop
    obtain ⟨⟨x, j⟩, hx, rfl⟩ := List.mem_map.1 hop
    rw [List.mem_iff_getElem?] at hx
    obtain ⟨t, ht⟩ := hx
    rw [List.getElem?_drop, List.getElem?_zipIdx] at ht
    simp only [Option.map_eq_some_iff] at ht
    obtain ⟨y, hy, he⟩ := ht
    simp only [Prod.mk.injEq] at he
    simp only [Op.names, List.mem_singleton]
    intro ho
    exact hlast (k + 1 + t) (by omega) (by rw [hy, he.1, ho])

/-- Common part of the two uncorrelated forms. -/
theorem uncorrelated {E : Type} (f : E → Except PyErr (ObsId N A × D)) (vs : List E) (m : Loaded N A D)
    (h : vs.foldlM (fun m v => do let p ← f v; .ok (m.add [p.1] (.base p.2))) Loaded.init = .ok m) :
    ∃ ps, List.Forall₂ (fun v p => f v = .ok p) vs ps ∧
      allParameters m.state = lastOccs (ps.map Prod.fst) ∧
      ∀ (k : Nat) p, ps[k]? = some p → (∀ (j : Nat) q, k < j → ps[j]? = some q → q.1 ≠ p.1) →
        Constrains m p.1 0 (.base p.2) := by
  obtain ⟨ps, h1, rfl⟩ := (foldlM_entries f vs _ m).1 h
  refine ⟨ps, h1, ?_⟩
  have hz : ps = (ps.map Prod.fst).zip (ps.map Prod.snd) := by
    rw [← List.unzip_fst, ← List.unzip_snd, List.zip_unzip]
  have hf := fold_hist (ps.map Prod.fst) (ps.map Prod.snd) (by simp) (Loaded.init : Loaded N A D)
  rw [← hz] at hf
  rw [hf]
  have hrun : (hist (ps.map Prod.fst) (Loaded.init : Loaded N A D).heap.length).foldl step
      (Loaded.init : Loaded N A D).state = run (hist (ps.map Prod.fst) 0) := rfl
  rw [hrun]
  have hfor : ∀ (k : Nat) p, ps[k]? = some p →
      (∀ (j : Nat) q, k < j → ps[j]? = some q → q.1 ≠ p.1) →
      InForce (hist (ps.map Prod.fst) 0) p.1 0 k := by
    intro k p hk hl
    apply inForce_hist
    · simp [hk]
    · intro j hj he
      simp only [List.getElem?_map, Option.map_eq_some_iff] at he
      obtain ⟨q, hq, he⟩ := he
      exact hl j q hj hq he
  constructor
  · classical
    show allParameters (run _) = _
    rw [C02_all_parameters_order, named_hist]
    rw [List.filter_eq_self]
    intro o ho
    rw [mem_lastOccs] at ho
    have : o ∈ (run (hist (ps.map Prod.fst) 0)).parameters.keys ∨ True := Or.inr trivial
    simp only [decide_eq_true_eq]
    obtain ⟨i, hi⟩ := Option.isSome_iff_exists.1 ((lastIdx_isSome_iff (ps.map Prod.fst) o).2 ho)
    have hla := (lastIdx_eq_some_iff _ _ _).1 hi
    exact ⟨0, i, inForce_hist _ i o hla.1 hla.2⟩
  · intro k p hk hl
    refine ⟨k, (C01_last_constraint_wins _ _ _ _).2 (hfor k p hk hl), ?_⟩
    simp [Loaded.init, hk]

/-- **C28 (uncorrelated, list form)** If `_load` succeeds, every entry of the data names its observable
`(name, arg values...)` and has a distribution; the measurement constrains exactly the observables in the
data (each listed once), and every observable is constrained by the distribution of the last entry that
names it - if all entries name different observables, by its own entry. -/
theorem C28_list_form (argsOf : N → Except PyErr (List String)) (conv : W → Except PyErr D)
    (vs : List (ValueDict N A W)) (m : Loaded N A D) (h : loadList argsOf conv vs = .ok m) :
    ∃ ps : List (ObsId N A × D),
      List.Forall₂ (fun v p => Meant argsOf v p.1 ∧ conv v.value = .ok p.2) vs ps ∧
      (allParameters m.state).Nodup ∧ (∀ o, o ∈ allParameters m.state ↔ o ∈ ps.map Prod.fst) ∧
      (∀ (k : Nat) p, ps[k]? = some p → (∀ (j : Nat) q, k < j → ps[j]? = some q → q.1 ≠ p.1) →
        Constrains m p.1 0 (.base p.2)) ∧
      ((ps.map Prod.fst).Nodup → allParameters m.state = ps.map Prod.fst ∧
        ∀ p ∈ ps, Constrains m p.1 0 (.base p.2)) := by
  have hl : loadList argsOf conv vs = vs.foldlM (fun m v => do
      let p ← (do let o ← obsTuple argsOf v; let d ← conv v.value; Except.ok (o, d) :
        Except PyErr (ObsId N A × D))
      .ok (m.add [p.1] (.base p.2))) Loaded.init := by
    unfold loadList
    congr 1
    funext m v
    cases obsTuple argsOf v <;> cases conv v.value <;> rfl
  rw [hl] at h
  obtain ⟨ps, h1, h2, h3⟩ := uncorrelated _ vs m h
  refine ⟨ps, ?_, ?_, ?_, h3, ?_⟩
  · refine h1.imp fun v p hp => ?_
    obtain ⟨o, ho, hp⟩ := bind_ok hp
    obtain ⟨d, hd, hp⟩ := bind_ok hp
    injection hp with hp
    subst hp
    exact ⟨(obsTuple_ok _ _ _).1 ho, hd⟩
  · obtain ⟨ps', -, rfl⟩ := (foldlM_entries _ vs _ m).1 h
    have : ∀ (ps' : List (ObsId N A × D)) (m0 : Loaded N A D), m0.state.parameters.keys.Nodup →
        (ps'.foldl (fun m e => m.add [e.1] (.base e.2)) m0).state.parameters.keys.Nodup := by
      intro ps'
      induction ps' with
      | nil => exact fun _ h => h
      | cons p ps' ih => intro m0 h0; exact ih _ (wf_foldl_addOne _ _ _ h0)
    exact this ps' _ List.nodup_nil
  · intro o; rw [h2, mem_lastOccs]
  · intro hn
    refine ⟨by rw [h2, lastOccs_nodup hn], fun p hp => ?_⟩
    obtain ⟨k, hk⟩ := List.mem_iff_getElem?.1 hp
    refine h3 k p hk fun j q hj hq he => ?_
    have h1 : (ps.map Prod.fst)[j]? = (ps.map Prod.fst)[k]? := by simp [hq, hk, he]
    have hjl : j < (ps.map Prod.fst).length := by
      by_contra hc
      rw [List.length_map] at hc
      rw [List.getElem?_eq_none (by omega)] at hq; cases hq
    have := (List.getElem?_inj hjl hn).1 h1
    omega

/-- **C28 (uncorrelated, dictionary form)** If `_load` succeeds, the constrained observables are exactly the
keys, in order, each constrained by the distribution made from its own value. -/
theorem C28_dict_form (conv : W → Except PyErr D) (vs : List (N × W)) (hn : (vs.map Prod.fst).Nodup)
    (m : Loaded N A D) (h : loadDict conv vs = .ok m) :
    allParameters m.state = vs.map (fun v => .plain v.1) ∧
    ∀ v ∈ vs, ∃ d, conv v.2 = .ok d ∧ Constrains m (.plain v.1) 0 (.base d) := by
  have hl : loadDict conv vs = vs.foldlM (fun m v => do
      let p ← (do let d ← conv v.2; Except.ok (ObsId.plain v.1, d) : Except PyErr (ObsId N A × D))
      .ok (m.add [p.1] (.base p.2))) Loaded.init := by
    unfold loadDict
    congr 1
    funext m v
    cases conv v.2 <;> rfl
  rw [hl] at h
  obtain ⟨ps, h1, h2, h3⟩ := uncorrelated _ vs m h
  have hfst : ps.map Prod.fst = vs.map (fun v => ObsId.plain v.1) := by
    clear h2 h3 h hl hn
    induction h1 with
    | nil => rfl
    | cons hp _ ih =>
      obtain ⟨d, hd, hp⟩ := bind_ok hp
      injection hp with hp
      rw [List.map_cons, List.map_cons, ih, ← hp]
  have hnd : (ps.map Prod.fst).Nodup := by
    rw [hfst]
    have : vs.map (fun v => (ObsId.plain v.1 : ObsId N A)) = (vs.map Prod.fst).map ObsId.plain := by simp
    rw [this]
    exact hn.map (fun a b h => by injection h)
  refine ⟨by rw [h2, lastOccs_nodup hnd, hfst], fun v hv => ?_⟩
  obtain ⟨p, hp, hvp⟩ := forall₂_mem_left h1 hv
  obtain ⟨d, hd, hvp⟩ := bind_ok hvp
  injection hvp with hvp
  subst hvp
  refine ⟨d, hd, ?_⟩
  obtain ⟨k, hk⟩ := List.mem_iff_getElem?.1 hp
  refine h3 k _ hk fun j q hj hq he => ?_
  have h1 : (ps.map Prod.fst)[j]? = (ps.map Prod.fst)[k]? := by simp [hq, hk, he]
  have hjl : j < (ps.map Prod.fst).length := by
    by_contra hc
    rw [List.length_map] at hc
    rw [List.getElem?_eq_none (by omega)] at hq; cases hq
  have := (List.getElem?_inj hjl hnd).1 h1
  omega

theorem foldl_add_sum {α : Type} (l : List α) (f : α → ℚ) (a : ℚ) :
    l.foldl (fun a x => a + f x) a = a + (l.map f).sum := by
  induction l generalizing a with
  | nil => simp
  | cons x l ih => rw [List.foldl_cons, ih, List.map_cons, List.sum_cons]; ring

theorem squaredError_eq (e : Parse.Errors) : squaredError e = quadrature e := by
  unfold squaredError quadrature
  rw [foldl_add_sum e.sym (fun s => s ^ 2), foldl_add_sum e.asym (fun p => p.1 * p.2)]
  ring

/-- The completed correlation matrix always has 1 on the diagonal. -/
theorem fixCorr_diag {corr : CorrArg ℝ} {n : Nat} {c : Mat n ℝ} (h : fixCorr corr n = .ok c) (i : Fin n) :
    c i i = 1 := by
  cases corr with
  | number x => simp only [fixCorr] at h; injection h with h; subst h; simp
  | other => cases h
  | rows rows =>
    simp only [fixCorr] at h
    split at h
    · cases h
    · rename_i hl
      simp at hl
      obtain ⟨rs, hr, h⟩ := bind_ok h
      injection h with h
      have hf := (mapM_ok_iff _ _ _).1 hr
      have hd : (rs.getD i fun _ => 0) i = (1 : ℝ) := by
        have hi : (i : Nat) < rows.length := by rw [hl]; exact i.2
        have hz : (rows[(i : Nat)], (i : Nat)) ∈ rows.zipIdx :=
          List.mem_zipIdx_iff_getElem?.2 (List.getElem?_eq_getElem hi)
        have hlen : rs.length = rows.length := by rw [← hf.length_eq]; simp
        have hget := List.forall₂_iff_get.1 hf
        have := hget.2 i (by simpa using hi) (by rw [hlen]; exact hi)
        simp only [List.get_eq_getElem, List.getElem_zipIdx, Nat.zero_add] at this
        have hgd : rs.getD (i : Nat) (fun _ => 0) = rs[(i : Nat)]'(by rw [hlen]; exact hi) := by
          simp [List.getD, List.getElem?_eq_getElem, hlen, hi]
        rw [hgd]
        unfold fixRow at this
        split at this
        · split at this
          · cases this
          · rename_i h1 h2
            injection this with this
            rw [← this]
            simp at h2
            simp [h2]
        · split at this
          · split at this
            · cases this
            · rename_i h1 h2
              injection this with this
              rw [← this]
              simp at h2
              simp [h2]
          · cases this
      subst h
      by_cases hac : Allclose (fun i j : Fin n => (rs.getD i fun _ => 0) j)
          (Mat.swap fun i j : Fin n => (rs.getD i fun _ => 0) j)
      · rw [symmetrise_close hac]; exact hd
      · rw [symmetrise_not hac]; simp only [if_true]; rw [hd]; ring

theorem allParameters_single (obs : List (ObsId N A)) (hn : obs.Nodup) (d : LDist D) :
    allParameters (Loaded.init.add obs d).state = obs := by
  classical
  have : (Loaded.init.add obs d).state = run [Op.add obs 0] := rfl
  rw [this, C02_all_parameters_order]
  simp only [named, List.append_nil]
  rw [lastOccs_nodup hn, List.filter_eq_self]
  intro o ho
  simp only [decide_eq_true_eq]
  obtain ⟨i, hi, hf⟩ := (C01_add [] obs 0 o).1 ho
  exact ⟨i, 0, hf⟩

theorem constrains_single (obs : List (ObsId N A)) (hn : obs.Nodup) (d : LDist D) (i : Nat) (o : ObsId N A)
    (hi : obs[i]? = some o) : Constrains (Loaded.init.add obs d) o i d := by
  refine ⟨0, ?_, rfl⟩
  have : (Loaded.init.add obs d).state = run [Op.add obs 0] := rfl
  rw [this]
  refine (C01_last_constraint_wins _ _ _ _).2 ⟨[], obs, [], rfl, hi, ?_, by simp⟩
  intro j hj he
  have hjl : j < obs.length := by
    by_contra hc
    rw [List.getElem?_eq_none (by omega)] at he; cases he
  have := (List.getElem?_inj hjl hn).1 (he.trans hi.symm)
  omega

/-- Common part of the correlated forms: one entry `f v` per value. -/
theorem correlated {E : Type} (corr : CorrArg ℝ) (ob : E → Except PyErr (ObsId N A)) (val : E → List Char)
    (vs : List E) (m : Loaded N A D)
    (h : (do let es ← vs.mapM (fun v => corrEntry (ob v) (val v)); corrFinish corr es) = .ok m) :
    ∃ (obs : List (ObsId N A)) (ers : List Parse.Errors) (n : Nat) (c : Fin n → ℝ) (cov : Mat n ℝ) (cor : Mat n ℝ),
      List.Forall₂ (fun v o => ob v = .ok o) vs obs ∧
      List.Forall₂ (fun v e => Parse.errorsFromString (val v) = .ok e) vs ers ∧
      fixCorr corr n = .ok cor ∧ n = vs.length ∧
      (obs.Nodup → allParameters m.state = obs ∧
        ∀ (i : Nat) o, obs[i]? = some o → Constrains m o i (.mvn n c cov)) ∧
      (∀ (i : Fin n) e, ers[(i : Nat)]? = some e → c i = e.central ∧ cov i i = quadrature e) ∧
      (∀ i j, cov i j = Real.sqrt (cov i i) * Real.sqrt (cov j j) * cor i j) := by
  obtain ⟨es, he, h⟩ := bind_ok h
  obtain ⟨cor, hc, h⟩ := bind_ok h
  injection h with h
  subst h
  have hf := (mapM_ok_iff _ _ _).1 he
  have hex : ∀ (vs : List E) es, List.Forall₂ (fun v b => corrEntry (ob v) (val v) = .ok b) vs es →
      List.Forall₂ (fun v o => ob v = .ok o) vs (es.map (·.1)) ∧
      ∃ ers, List.Forall₂ (fun v e => Parse.errorsFromString (val v) = .ok e) vs ers ∧
        List.Forall₂ (fun e (p : ObsId N A × ℚ × ℝ) => p.2.1 = e.central ∧ 0 ≤ quadrature e ∧
          p.2.2 = Real.sqrt ((quadrature e : ℚ) : ℝ)) ers es := by
    intro vs es hf
    induction hf with
    | nil => exact ⟨.nil, [], .nil, .nil⟩
    | cons hp _ ih =>
      obtain ⟨i1, ers, i2, i3⟩ := ih
      obtain ⟨o, ho, hp⟩ := bind_ok hp
      obtain ⟨e, hE, hp⟩ := bind_ok hp
      obtain ⟨s, hs, hp⟩ := bind_ok hp
      injection hp with hp
      subst hp
      refine ⟨.cons ho i1, e :: ers, .cons hE i2, .cons ⟨rfl, ?_⟩ i3⟩
      unfold pySqrt at hs
      rw [squaredError_eq] at hs
      split at hs
      · cases hs
      · rename_i hneg
        injection hs with hs
        exact ⟨not_lt.1 hneg, hs.symm⟩
  obtain ⟨h1, ers, h2, h3⟩ := hex vs es hf
  have hdiag := fixCorr_diag hc
  have hlen : es.length = vs.length := hf.length_eq.symm
  have hvar : ∀ (i : Fin es.length) e, ers[(i : Nat)]? = some e →
      ((es[i].2.1 : ℚ) : ℝ) = e.central ∧ es[i].2.2 * es[i].2.2 * cor i i = quadrature e := by
    intro i e hi
    have hlt : (i : Nat) < ers.length := by
      by_contra hcn
      rw [List.getElem?_eq_none (by omega)] at hi; cases hi
    have := (List.forall₂_iff_get.1 h3).2 i hlt i.2
    simp only [List.get_eq_getElem] at this
    rw [List.getElem?_eq_getElem hlt] at hi
    injection hi with hi
    rw [hi] at this
    obtain ⟨a, b, c⟩ := this
    refine ⟨by rw [Fin.getElem_fin, a], ?_⟩
    rw [hdiag i, Fin.getElem_fin, c, mul_one]
    exact Real.mul_self_sqrt (by exact_mod_cast b)
  refine ⟨es.map (·.1), ers, es.length, fun i => ((es[i].2.1 : ℚ) : ℝ),
    fun i j => es[i].2.2 * es[j].2.2 * cor i j, cor, h1, h2, hc, hlen, ?_, hvar, ?_⟩
  · intro hn
    exact ⟨allParameters_single _ hn _, fun i o hi => constrains_single _ hn _ i o hi⟩
  · intro i j
    have hnn : ∀ i : Fin es.length, 0 ≤ es[i].2.2 := by
      intro i
      have hlt : (i : Nat) < ers.length := by rw [h3.length_eq]; exact i.2
      have := ((List.forall₂_iff_get.1 h3).2 i hlt i.2).2.2
      simp only [List.get_eq_getElem] at this
      rw [Fin.getElem_fin, this]; exact Real.sqrt_nonneg _
    simp only [hdiag, mul_one]
    rw [Real.sqrt_mul_self (hnn i), Real.sqrt_mul_self (hnn j)]

/-- **C28 (correlated, list form)** If `_load` succeeds, there is one multivariate normal distribution; its
components are the observables named by the entries, in order (if they are all different), its central
values are those of the entries, its variances the quadrature sums of the errors of the entries, and its
correlations those of the completed correlation matrix. -/
theorem C28_correlated_list (argsOf : N → Except PyErr (List String)) (corr : CorrArg ℝ)
    (vs : List (ValueDict N A (List Char))) (m : Loaded N A D) (h : loadCorrList argsOf corr vs = .ok m) :
    ∃ (obs : List (ObsId N A)) (ers : List Parse.Errors) (n : Nat) (c : Fin n → ℝ) (cov : Mat n ℝ) (cor : Mat n ℝ),
      List.Forall₂ (fun v o => Meant argsOf v o) vs obs ∧
      List.Forall₂ (fun v e => Parse.errorsFromString v.value = .ok e) vs ers ∧
      fixCorr corr n = .ok cor ∧ n = vs.length ∧
      (obs.Nodup → allParameters m.state = obs ∧
        ∀ (i : Nat) o, obs[i]? = some o → Constrains m o i (.mvn n c cov)) ∧
      (∀ (i : Fin n) e, ers[(i : Nat)]? = some e → c i = e.central ∧ cov i i = quadrature e) ∧
      (∀ i j, cov i j = Real.sqrt (cov i i) * Real.sqrt (cov j j) * cor i j) := by
  obtain ⟨obs, ers, n, c, cov, cor, h1, h2⟩ :=
    correlated corr (fun v => obsTuple argsOf v) (fun v => v.value) vs m h
  exact ⟨obs, ers, n, c, cov, cor, h1.imp fun v o ho => (obsTuple_ok _ _ _).1 ho, h2⟩

/-- **C28 (correlated, dictionary form)** -/
theorem C28_correlated_dict (corr : CorrArg ℝ) (vs : List (N × List Char)) (hn : (vs.map Prod.fst).Nodup)
    (m : Loaded N A D) (h : loadCorrDict corr vs = .ok m) :
    ∃ (ers : List Parse.Errors) (n : Nat) (c : Fin n → ℝ) (cov : Mat n ℝ) (cor : Mat n ℝ),
      List.Forall₂ (fun v e => Parse.errorsFromString v.2 = .ok e) vs ers ∧
      fixCorr corr n = .ok cor ∧ n = vs.length ∧
      allParameters m.state = vs.map (fun v => .plain v.1) ∧
      (∀ (i : Nat) v, vs[i]? = some v → Constrains m (.plain v.1) i (.mvn n c cov)) ∧
      (∀ (i : Fin n) e, ers[(i : Nat)]? = some e → c i = e.central ∧ cov i i = quadrature e) ∧
      (∀ i j, cov i j = Real.sqrt (cov i i) * Real.sqrt (cov j j) * cor i j) := by
  obtain ⟨obs, ers, n, c, cov, cor, h1, h2, h3, h4, h5, h6, h7⟩ :=
    correlated corr (fun v : N × List Char => (.ok (.plain v.1) : Except PyErr (ObsId N A))) (fun v => v.2) vs m h
  have ho : obs = vs.map (fun v => .plain v.1) := by
    clear h2 h5 h hn h4 h6
    induction h1 with
    | nil => rfl
    | cons hp _ ih => injection hp with hp; rw [List.map_cons, ← hp, ih]
  have hnd : obs.Nodup := by
    have : vs.map (fun v => (ObsId.plain v.1 : ObsId N A)) = (vs.map Prod.fst).map ObsId.plain := by simp
    rw [ho, this]
    exact hn.map (fun a b h => by injection h)
  obtain ⟨h8, h9⟩ := h5 hnd
  exact ⟨ers, n, c, cov, cor, h2, h3, h4, by rw [h8, ho], fun i v hv => h9 i _ (by simp [ho, hv]), h6, h7⟩

/-- **C28 (`observables` branch)** The given distribution is attached to the listed observables in order. -/
theorem C28_multi (argsOf : N → Except PyErr (List String)) (obs : List (N ⊕ ValueDict N A Unit))
    (pd : Except PyErr D) (m : Loaded N A D) (h : loadMulti argsOf obs pd = .ok m) :
    ∃ d l, pd = .ok d ∧ List.Forall₂ (fun o i => match o with
        | .inl n => i = ObsId.plain n
        | .inr v => Meant argsOf v i) obs l ∧
      (l.Nodup → allParameters m.state = l ∧
        ∀ (i : Nat) o, l[i]? = some o → Constrains m o i (.base d)) := by
  obtain ⟨d, hd, h⟩ := bind_ok h
  obtain ⟨l, hl, h⟩ := bind_ok h
  injection h with h
  subst h
  refine ⟨d, l, hd, ((mapM_ok_iff _ _ _).1 hl).imp ?_, fun hn =>
    ⟨allParameters_single _ hn _, fun i o hi => constrains_single _ hn _ i o hi⟩⟩
  intro o i hi
  cases o with
  | inl n => injection hi with hi; exact hi.symm
  | inr v => exact (obsTuple_ok _ _ _).1 hi

/-! ### Concrete instances -/

/-- `FL(B0->K*mumu)` in two bins with a distribution `7` resp. `8`. -/
example : ∃ m, loadList (N := String) (A := Nat) (D := Nat) (fun _ => .ok ["q2min", "q2max"]) (fun w => .ok w)
    [⟨"FL", [("q2min", 1), ("q2max", 6)], 7⟩, ⟨"FL", [("q2min", 15), ("q2max", 19)], 8⟩] = .ok m ∧
    allParameters m.state = [.tup "FL" [1, 6], .tup "FL" [15, 19]] := ⟨_, rfl, by decide⟩

theorem err_example (c : Char) (hc : c = '5' ∨ c = '6') : ∃ v : ℚ,
    Parse.errorsFromString ['1', '.', '2', '(', c, ')'] = .ok ⟨6 / 5, [v], []⟩ := by
  rcases hc with rfl | rfl
  · exact ⟨1 / 2, by decide +kernel⟩
  · exact ⟨3 / 5, by decide +kernel⟩

/-- Two correlated observables. -/
example : ∃ m, loadCorrDict (N := String) (A := Nat) (D := Nat) (.number (1 / 2))
    [("a", "1.2(5)".toList), ("b", "1.2(6)".toList)] = .ok m := by
  obtain ⟨v, hv⟩ := err_example '5' (Or.inl rfl)
  obtain ⟨w, hw⟩ := err_example '6' (Or.inr rfl)
  have e1 : corrEntry (N := String) (A := Nat) (.ok (.plain "a")) "1.2(5)".toList =
      .ok (.plain "a", 6 / 5, Real.sqrt ((v ^ 2 : ℚ) : ℝ)) := by
    unfold corrEntry
    rw [show "1.2(5)".toList = ['1', '.', '2', '(', '5', ')'] by decide, hv]
    show (do let s ← pySqrt (squaredError _); Except.ok _) = _
    rw [squaredError_eq]
    simp only [quadrature, pySqrt, List.map_cons, List.map_nil, List.sum_cons, List.sum_nil, add_zero]
    rw [if_neg (not_lt.2 (sq_nonneg v))]
    rfl
  have e2 : corrEntry (N := String) (A := Nat) (.ok (.plain "b")) "1.2(6)".toList =
      .ok (.plain "b", 6 / 5, Real.sqrt ((w ^ 2 : ℚ) : ℝ)) := by
    unfold corrEntry
    rw [show "1.2(6)".toList = ['1', '.', '2', '(', '6', ')'] by decide, hw]
    show (do let s ← pySqrt (squaredError _); Except.ok _) = _
    rw [squaredError_eq]
    simp only [quadrature, pySqrt, List.map_cons, List.map_nil, List.sum_cons, List.sum_nil, add_zero]
    rw [if_neg (not_lt.2 (sq_nonneg w))]
    rfl
  unfold loadCorrDict
  simp only [List.mapM_cons, List.mapM_nil, e1, e2]
  exact ⟨_, rfl⟩

end Verif.Measurements
