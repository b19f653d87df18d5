import Verif.Wilson.Model
import Mathlib.Data.List.Basic
import Mathlib.Data.List.Induction
import Mathlib.Tactic.Common
/-!
# Do predictions with a Wilson object depend on earlier predictions?
-/
set_option linter.unusedVariables false
set_option linter.unusedSimpArgs false
set_option linter.unusedSectionVars false
namespace Verif.Wilson

variable {I P K V : Type} [DecidableEq P] [DecidableEq K]

/-- All entries of a cache are the values for the parameters `p`. (Specification.) -/
def Good (compute : I → P → K → V) (wc : I) (p : P) (c : List (K × V)) : Prop :=
  ∀ e ∈ c, e.2 = compute wc p e.1

theorem lookup_good {compute : I → P → K → V} {wc : I} {p : P} {c : List (K × V)} (h : Good compute wc p c) {k : K}
    {v : V} (hl : lookup c k = some v) : v = compute wc p k := by
  unfold lookup at hl
  obtain ⟨e, he, rfl⟩ := Option.map_eq_some_iff.1 hl
  have h1 := List.find?_some he
  simp only [decide_eq_true_eq] at h1
  rw [h e (List.mem_of_find?_eq_some he), h1]

/-- A `match_run` on a good cache gives the right value and keeps the cache good; nothing else changes. -/
theorem matchRun_good (sem : Sem P) (compute : I → P → K → V) (m : Mem P K V) (o : Obj I) (k : K) (c : List (K × V))
    (hc : m.caches[o.cache]? = some c) (hg : Good compute o.wc (getOption sem m o) c) :
    (matchRun sem compute m o k).1 = compute o.wc (getOption sem m o) k ∧
    (matchRun sem compute m o k).2.opts = m.opts ∧
    ∃ c', (matchRun sem compute m o k).2.caches = m.caches.set o.cache c' ∧
      Good compute o.wc (getOption sem m o) c' := by
  have hlt : o.cache < m.caches.length := (List.getElem?_eq_some_iff.1 hc).1
  unfold matchRun
  rw [hc]
  simp only [Option.getD_some]
  cases hl : lookup c k with
  | some v =>
    refine ⟨lookup_good hg hl, rfl, c, ?_, hg⟩
    apply List.ext_getElem?
    intro i
    by_cases hi : o.cache = i
    · subst hi; rw [List.getElem?_set_self hlt, hc]
    · rw [List.getElem?_set_ne hi]
  | none =>
    refine ⟨rfl, rfl, _, rfl, ?_⟩
    intro e he
    rcases List.mem_cons.1 he with rfl | he
    · rfl
    · exact hg e he

theorem queries_good (sem : Sem P) (compute : I → P → K → V) (o : Obj I) (ks : List K) :
    ∀ (m : Mem P K V) (c : List (K × V)), m.caches[o.cache]? = some c →
      Good compute o.wc (getOption sem m o) c →
    (queries sem compute o m ks).1 = ks.map (compute o.wc (getOption sem m o)) ∧
    (queries sem compute o m ks).2.opts = m.opts ∧
    ∃ c', (queries sem compute o m ks).2.caches = m.caches.set o.cache c' ∧
      Good compute o.wc (getOption sem m o) c' := by
  induction ks with
  | nil =>
    intro m c hc hg
    refine ⟨rfl, rfl, c, ?_, hg⟩
    have hlt : o.cache < m.caches.length := (List.getElem?_eq_some_iff.1 hc).1
    apply List.ext_getElem?
    intro i
    by_cases hi : o.cache = i
    · subst hi; rw [List.getElem?_set_self hlt, ← hc]; rfl
    · rw [List.getElem?_set_ne hi]; rfl
  | cons k ks ih =>
    intro m c hc hg
    have hlt : o.cache < m.caches.length := (List.getElem?_eq_some_iff.1 hc).1
    obtain ⟨h1, h2, c1, h3, h4⟩ := matchRun_good sem compute m o k c hc hg
    have hopt : getOption sem (matchRun sem compute m o k).2 o = getOption sem m o := by
      unfold getOption; rw [h2]
    have hc1 : (matchRun sem compute m o k).2.caches[o.cache]? = some c1 := by
      rw [h3, List.getElem?_set_self hlt]
    obtain ⟨q1, q2, c2, q3, q4⟩ := ih _ c1 hc1 (by rw [hopt]; exact h4)
    rw [hopt] at q1 q4
    refine ⟨?_, ?_, c2, ?_, q4⟩
    · simp only [queries, List.map_cons]; rw [h1, q1]
    · simp only [queries]; rw [q2, h2]
    · simp only [queries]; rw [q3, h3, List.set_set]

theorem run_append (sem : Sem P) (compute : I → P → K → V) (w : Obj I) (h : List (Ev P K)) (e : Ev P K) :
    run sem compute w (h ++ [e]) = step sem compute w (run sem compute w h) e := by
  simp [run]

/-! ## Both in place -/

/-- Invariant when options and cache are changed in place. (Specification.) -/
def InvA (sem : Sem P) (compute : I → P → K → V) (wc : I) (m : Mem P K V) : Prop :=
  ∃ o c, m.opts = [o] ∧ m.caches = [c] ∧ Good compute wc (o.getD sem.default) c

theorem predA (sem : Sem P) (h1 : sem.optionsInPlace = true) (h2 : sem.clearInPlace = true)
    (compute : I → P → K → V) (wc : I) (m : Mem P K V) (hm : InvA sem compute wc m) (p : P) (ks : List K) :
    (predict sem compute m (newObj wc false) p ks).1 = ks.map (compute wc p) ∧
    InvA sem compute wc (predict sem compute m (newObj wc false) p ks).2 := by
  obtain ⟨o, c, ho, hc, hg⟩ := hm
  have hopt : ∀ own, getOption sem m ⟨wc, 0, 0, own⟩ = o.getD sem.default := by
    intro own; simp [getOption, ho]
  unfold predict fromWilson newObj
  rw [if_neg (by simp)]
  simp only [hopt]
  by_cases hp : o.getD sem.default = p
  · rw [if_neg (by simpa using hp)]
    obtain ⟨q1, q2, c', q3, q4⟩ := queries_good sem compute ⟨wc, 0, 0, true⟩ ks m c (by simp [hc])
      (by rw [hopt]; exact hg)
    rw [hopt] at q1 q4
    refine ⟨by rw [q1, hp], o, c', by rw [q2, ho], by rw [q3, hc]; rfl, q4⟩
  · rw [if_pos (by simpa using hp)]
    have hset : setOption sem m ⟨wc, 0, 0, true⟩ p = (⟨wc, 0, 0, true⟩, ⟨[some p], [[]]⟩) := by
      simp [setOption, h1, h2, ho, hc]
    rw [hset]
    have hopt' : getOption sem (⟨[some p], [[]]⟩ : Mem P K V) (⟨wc, 0, 0, true⟩ : Obj I) = p := by simp [getOption]
    obtain ⟨q1, q2, c', q3, q4⟩ := queries_good sem compute ⟨wc, 0, 0, true⟩ ks (⟨[some p], [[]]⟩ : Mem P K V) []
      (by simp) (by intro e he; simp at he)
    rw [hopt'] at q1 q4
    exact ⟨q1, some p, c', q2, by rw [q3]; rfl, q4⟩

theorem runA (sem : Sem P) (h1 : sem.optionsInPlace = true) (h2 : sem.clearInPlace = true)
    (compute : I → P → K → V) (wc : I) (h : List (Ev P K)) :
    InvA sem compute wc (run sem compute (newObj wc false) h) := by
  induction h using List.reverseRecOn with
  | nil => exact ⟨none, [], rfl, rfl, by intro e he; simp at he⟩
  | append_singleton h e ih =>
    rw [run_append]
    cases e with
    | pred p ks => exact (predA sem h1 h2 compute wc _ ih p ks).2
    | user k =>
      obtain ⟨o, c, ho, hc, hg⟩ := ih
      generalize run sem compute (newObj wc false) h = m at ho hc ⊢
      have hopt : getOption sem m (newObj wc false) = o.getD sem.default := by
        simp [getOption, ho, newObj]
      obtain ⟨-, q2, c', q3, q4⟩ := matchRun_good sem compute m (newObj wc false) k c
        (by simp [hc, newObj]) (by rw [hopt]; exact hg)
      rw [hopt] at q4
      exact ⟨o, c', by rw [← ho]; exact q2, by rw [show step sem compute (newObj wc false)
        m (.user k) = (matchRun sem compute m (newObj wc false) k).2 from rfl, q3, hc]; rfl, q4⟩

/-- **C156.** If `set_option` works in place (options and cache), predictions do not depend on history: after any
sequence of predictions with any parameters and any direct use of the object, a prediction with parameters `p` is
based on the Wilson coefficients for the parameters `p`. -/
theorem C156_in_place (sem : Sem P) (h1 : sem.optionsInPlace = true) (h2 : sem.clearInPlace = true)
    (compute : I → P → K → V) (wc : I) (h : List (Ev P K)) (p : P) (ks : List K) :
    (predict sem compute (run sem compute (newObj wc false) h) (newObj wc false) p ks).1 = ks.map (compute wc p) :=
  (predA sem h1 h2 compute wc _ (runA sem h1 h2 compute wc h) p ks).1

/-! ## Both replaced -/

/-- Invariant when options and cache are replaced: the user's object keeps the default. (Specification.) -/
def InvB (sem : Sem P) (compute : I → P → K → V) (wc : I) (m : Mem P K V) : Prop :=
  m.opts[0]? = some none ∧ ∃ c, m.caches[0]? = some c ∧ Good compute wc sem.default c

theorem predB (sem : Sem P) (h1 : sem.optionsInPlace = false) (h2 : sem.clearInPlace = false)
    (compute : I → P → K → V) (wc : I) (m : Mem P K V) (hm : InvB sem compute wc m) (p : P) (ks : List K) :
    (predict sem compute m (newObj wc false) p ks).1 = ks.map (compute wc p) ∧
    InvB sem compute wc (predict sem compute m (newObj wc false) p ks).2 := by
  obtain ⟨ho, c, hc, hg⟩ := hm
  have hopt : ∀ own, getOption sem m ⟨wc, 0, 0, own⟩ = sem.default := by
    intro own; simp [getOption, ho]
  have hlt : 0 < m.caches.length := (List.getElem?_eq_some_iff.1 hc).1
  have hlo : 0 < m.opts.length := (List.getElem?_eq_some_iff.1 ho).1
  unfold predict fromWilson newObj
  rw [if_neg (by simp)]
  simp only [hopt]
  by_cases hp : sem.default = p
  · rw [if_neg (by simpa using hp)]
    obtain ⟨q1, q2, c', q3, q4⟩ := queries_good sem compute ⟨wc, 0, 0, true⟩ ks m c hc (by rw [hopt]; exact hg)
    rw [hopt] at q1 q4
    refine ⟨by rw [q1, hp], by rw [q2]; exact ho, c', by rw [q3, List.getElem?_set_self hlt], q4⟩
  · rw [if_pos (by simpa using hp)]
    have hset : setOption sem m ⟨wc, 0, 0, true⟩ p =
        (⟨wc, m.opts.length, m.caches.length, true⟩, ⟨m.opts ++ [some p], m.caches ++ [[]]⟩) := by
      simp [setOption, h1, h2]
    rw [hset]
    have hopt' : getOption sem (⟨m.opts ++ [some p], m.caches ++ [[]]⟩ : Mem P K V)
        (⟨wc, m.opts.length, m.caches.length, true⟩ : Obj I) = p := by simp [getOption]
    obtain ⟨q1, q2, c', q3, q4⟩ := queries_good sem compute ⟨wc, m.opts.length, m.caches.length, true⟩ ks
      (⟨m.opts ++ [some p], m.caches ++ [[]]⟩ : Mem P K V) [] (by simp) (by intro e he; simp at he)
    rw [hopt'] at q1
    refine ⟨q1, ?_, c, ?_, hg⟩
    · rw [q2, List.getElem?_append_left hlo]; exact ho
    · rw [q3, List.getElem?_set_ne (by simp only; omega)]
      simp only [List.getElem?_append_left hlt]; exact hc

/-- **C156.** The same holds if `set_option` replaces both objects. -/
theorem C156_replaced (sem : Sem P) (h1 : sem.optionsInPlace = false) (h2 : sem.clearInPlace = false)
    (compute : I → P → K → V) (wc : I) (h : List (Ev P K)) (p : P) (ks : List K) :
    (predict sem compute (run sem compute (newObj wc false) h) (newObj wc false) p ks).1 = ks.map (compute wc p) := by
  refine (predB sem h1 h2 compute wc _ ?_ p ks).1
  induction h using List.reverseRecOn with
  | nil => exact ⟨rfl, [], rfl, by intro e he; simp at he⟩
  | append_singleton h e ih =>
    rw [run_append]
    cases e with
    | pred p ks => exact (predB sem h1 h2 compute wc _ ih p ks).2
    | user k =>
      obtain ⟨ho, c, hc, hg⟩ := ih
      generalize run sem compute (newObj wc false) h = m at ho hc ⊢
      have hlt := (List.getElem?_eq_some_iff.1 hc).1
      have hopt : getOption sem m (newObj wc false) = sem.default := by
        simp [getOption, ho, newObj]
      obtain ⟨-, q2, c', q3, q4⟩ := matchRun_good sem compute m (newObj wc false) k c
        hc (by rw [hopt]; exact hg)
      rw [hopt] at q4
      have hst : (step sem compute (newObj wc false) m (.user k)).opts = _ := q2
      refine ⟨(congrArg (·[0]?) hst).trans ho, c', ?_, q4⟩
      rw [show step sem compute (newObj wc false) m (.user k) = (matchRun sem compute m (newObj wc false) k).2 from rfl, q3]
      exact List.getElem?_set_self hlt

/-! ## Options in place, cache replaced -/

/-- Invariant while all predictions use the same parameters `p`. (Specification.) -/
def InvC (sem : Sem P) (compute : I → P → K → V) (wc : I) (p : P) (m : Mem P K V) : Prop :=
  ∃ o c, m.opts = [o] ∧ o.getD sem.default = p ∧ m.caches[0]? = some c ∧ Good compute wc p c

theorem predC (sem : Sem P) (h1 : sem.optionsInPlace = true) (h2 : sem.clearInPlace = false)
    (compute : I → P → K → V) (wc : I) (m : Mem P K V) (o : Option P) (c : List (K × V)) (ho : m.opts = [o])
    (hc : m.caches[0]? = some c) (p : P) (hg : Good compute wc p c) (ks : List K) :
    (predict sem compute m (newObj wc false) p ks).1 = ks.map (compute wc p) ∧
    InvC sem compute wc p (predict sem compute m (newObj wc false) p ks).2 := by
  have hopt : ∀ own, getOption sem m ⟨wc, 0, 0, own⟩ = o.getD sem.default := by
    intro own; simp [getOption, ho]
  have hlt : 0 < m.caches.length := (List.getElem?_eq_some_iff.1 hc).1
  unfold predict fromWilson newObj
  rw [if_neg (by simp)]
  simp only [hopt]
  by_cases hp : o.getD sem.default = p
  · rw [if_neg (by simpa using hp)]
    obtain ⟨q1, q2, c', q3, q4⟩ := queries_good sem compute ⟨wc, 0, 0, true⟩ ks m c hc
      (by rw [hopt, hp]; exact hg)
    rw [hopt, hp] at q1 q4
    exact ⟨q1, o, c', by rw [q2, ho], hp, by rw [q3, List.getElem?_set_self hlt], q4⟩
  · rw [if_pos (by simpa using hp)]
    have hset : setOption sem m ⟨wc, 0, 0, true⟩ p =
        (⟨wc, 0, m.caches.length, true⟩, ⟨[some p], m.caches ++ [[]]⟩) := by
      simp [setOption, h1, h2, ho]
    rw [hset]
    have hopt' : getOption sem (⟨[some p], m.caches ++ [[]]⟩ : Mem P K V)
        (⟨wc, 0, m.caches.length, true⟩ : Obj I) = p := by simp [getOption]
    obtain ⟨q1, q2, c', q3, q4⟩ := queries_good sem compute ⟨wc, 0, m.caches.length, true⟩ ks
      (⟨[some p], m.caches ++ [[]]⟩ : Mem P K V) [] (by simp) (by intro e he; simp at he)
    rw [hopt'] at q1
    refine ⟨q1, some p, c, q2, rfl, ?_, hg⟩
    rw [q3, List.getElem?_set_ne (by simp only; omega)]
    simp only [List.getElem?_append_left hlt]; exact hc

/-- Specification: all predictions of the history use the parameters `p`. -/
def SamePar (p : P) (h : List (Ev P K)) : Prop := ∀ q ks, Ev.pred q ks ∈ h → q = p

/-- **C156.** If `set_option` updates the options in place but gives the object a new cache: predictions are right
as long as all of them use the same parameters and the object was not used before the first of them. -/
theorem C156_same_parameters_partial (sem : Sem P) (h1 : sem.optionsInPlace = true) (h2 : sem.clearInPlace = false)
    (compute : I → P → K → V) (wc : I) (p : P) (ks₀ ks : List K) (h : List (Ev P K)) (hp : SamePar p h) :
    (predict sem compute (run sem compute (newObj wc false) []) (newObj wc false) p ks).1 = ks.map (compute wc p) ∧
    (predict sem compute (run sem compute (newObj wc false) (.pred p ks₀ :: h)) (newObj wc false) p ks).1 =
      ks.map (compute wc p) := by
  have first : ∀ ks, (predict sem compute (run sem compute (newObj wc false) []) (newObj wc false) p ks).1 =
      ks.map (compute wc p) ∧
      InvC sem compute wc p (predict sem compute (run sem compute (newObj wc false) []) (newObj wc false) p ks).2 :=
    fun ks => predC sem h1 h2 compute wc _ none [] rfl rfl p (by intro e he; simp at he) ks
  refine ⟨(first ks).1, ?_⟩
  have inv : ∀ h : List (Ev P K), SamePar p h →
      InvC sem compute wc p (run sem compute (newObj wc false) (.pred p ks₀ :: h)) := by
    intro h
    induction h using List.reverseRecOn with
    | nil => intro _; exact (first ks₀).2
    | append_singleton h e ih =>
      intro hp
      obtain ⟨o, c, ho, hop, hc, hg⟩ := ih (fun q ks hm => hp q ks (by simp [hm]))
      rw [← List.cons_append, run_append]
      cases e with
      | pred q ks =>
        have : q = p := hp q ks (by simp)
        subst this
        exact (predC sem h1 h2 compute wc _ o c ho hc q hg ks).2
      | user k =>
        generalize run sem compute (newObj wc false) (.pred p ks₀ :: h) = m at ho hc ⊢
        have hlt := (List.getElem?_eq_some_iff.1 hc).1
        have hopt : getOption sem m (newObj wc false) = p := by
          simp [getOption, ho, newObj, hop]
        obtain ⟨-, q2, c', q3, q4⟩ := matchRun_good sem compute m (newObj wc false) k c hc (by rw [hopt]; exact hg)
        rw [hopt] at q4
        refine ⟨o, c', by rw [← ho]; exact q2, hop, ?_, q4⟩
        rw [show step sem compute (newObj wc false) m (.user k) = (matchRun sem compute m (newObj wc false) k).2 from rfl,
          q3]
        exact List.getElem?_set_self hlt
  obtain ⟨o, c, ho, -, hc, hg⟩ := inv h hp
  exact (predC sem h1 h2 compute wc _ o c ho hc p hg ks).1

/-- **C156 (why only partial).** With options in place and a replaced cache, changing the CKM parameters between
predictions gives stale Wilson coefficients: after two predictions with `p₁` and one with `p₂`, the second prediction
with `p₂` uses the coefficients for `p₁`, although the first one used the right ones. -/
theorem C156_stale (sem : Sem P) (h1 : sem.optionsInPlace = true) (h2 : sem.clearInPlace = false)
    (compute : I → P → K → V) (wc : I) (p₁ p₂ : P) (hp : p₁ ≠ p₂) (k : K) :
    let w := newObj wc false
    (predict sem compute (run sem compute w [.pred p₁ [k], .pred p₁ [k]]) w p₂ [k]).1 = [compute wc p₂ k] ∧
    (predict sem compute (run sem compute w [.pred p₁ [k], .pred p₁ [k], .pred p₂ [k]]) w p₂ [k]).1 =
      [compute wc p₁ k] := by
  intro w
  obtain ⟨oip, cip, d⟩ := sem
  simp only at h1 h2
  subst h1; subst h2
  have hp' : ¬ p₂ = p₁ := fun h => hp h.symm
  by_cases h0 : d = p₁
  · subst h0
    simp [w, run, step, predict, fromWilson, newObj, getOption, setOption, queries, matchRun, lookup, hp, hp']
  · simp [w, run, step, predict, fromWilson, newObj, getOption, setOption, queries, matchRun, lookup, hp, hp', h0]

/-- **C156.** A prediction changes the user's object: the options of the object that was passed now contain the CKM
parameters of the prediction, so that `match_run` called by the user gives a different result than before. -/
theorem C156_side_effect (sem : Sem P) (h1 : sem.optionsInPlace = true) (compute : I → P → K → V) (wc : I) (p : P)
    (hp : sem.default ≠ p) (k : K) :
    (matchRun sem compute (run sem compute (newObj wc false) []) (newObj wc false) k).1 = compute wc sem.default k ∧
    (matchRun sem compute (run sem compute (newObj wc false) [.pred p []]) (newObj wc false) k).1 = compute wc p k := by
  obtain ⟨oip, cip, d⟩ := sem
  simp only at h1 hp
  subst h1
  cases cip <;>
  simp [run, step, predict, fromWilson, newObj, getOption, setOption, queries, matchRun, lookup, hp]

/-- **C156.** An instance of flavio's own class is used as it is: the CKM parameters of the prediction are never
passed on; every prediction is based on the default parameters of the `wilson` package. -/
theorem C156_own_class (sem : Sem P) (compute : I → P → K → V) (wc : I) (h : List (Ev P K)) (p : P) (ks : List K) :
    (predict sem compute (run sem compute (newObj wc true) h) (newObj wc true) p ks).1 =
      ks.map (compute wc sem.default) := by
  have inv : InvB sem compute wc (run sem compute (newObj wc true) h) := by
    induction h using List.reverseRecOn with
    | nil => exact ⟨rfl, [], rfl, by intro e he; simp at he⟩
    | append_singleton h e ih =>
      rw [run_append]
      obtain ⟨ho, c, hc, hg⟩ := ih
      generalize run sem compute (newObj wc true) h = m at ho hc ⊢
      have hlt := (List.getElem?_eq_some_iff.1 hc).1
      have hopt : getOption sem m (newObj wc true) = sem.default := by simp [getOption, ho, newObj]
      cases e with
      | pred p ks =>
        obtain ⟨-, q2, c', q3, q4⟩ := queries_good sem compute (newObj wc true) ks m c hc (by rw [hopt]; exact hg)
        rw [hopt] at q4
        have hs : step sem compute (newObj wc true) m (.pred p ks) = (queries sem compute (newObj wc true) m ks).2 := by
          simp [step, predict, fromWilson, newObj]
        exact ⟨by rw [hs, q2]; exact ho, c', by rw [hs, q3]; exact List.getElem?_set_self hlt, q4⟩
      | user k =>
        obtain ⟨-, q2, c', q3, q4⟩ := matchRun_good sem compute m (newObj wc true) k c hc (by rw [hopt]; exact hg)
        rw [hopt] at q4
        exact ⟨by rw [show step sem compute (newObj wc true) m (.user k) = (matchRun sem compute m (newObj wc true) k).2 from rfl, q2]; exact ho, c',
          by rw [show step sem compute (newObj wc true) m (.user k) = (matchRun sem compute m (newObj wc true) k).2 from rfl, q3]; exact List.getElem?_set_self hlt, q4⟩
  obtain ⟨ho, c, hc, hg⟩ := inv
  generalize run sem compute (newObj wc true) h = m at ho hc ⊢
  have hopt : getOption sem m (newObj wc true) = sem.default := by simp [getOption, ho, newObj]
  have := (queries_good sem compute (newObj wc true) ks m c hc (by rw [hopt]; exact hg)).1
  rw [hopt] at this
  simpa [predict, fromWilson, newObj] using this

/-- Non-vacuity: two CKM parameter points that give different Wilson coefficients. -/
example : ∃ (sem : Sem ℕ) (compute : ℕ → ℕ → ℕ → ℕ), sem.optionsInPlace = true ∧ sem.clearInPlace = false ∧
    compute 0 1 5 ≠ compute 0 2 5 :=
  ⟨⟨true, false, 0⟩, fun _ p k => p + k, rfl, rfl, by decide⟩

end Verif.Wilson
