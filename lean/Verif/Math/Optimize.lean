import Verif.Py.ExceptLemmas
import Mathlib.Algebra.Order.Field.Rat
import Mathlib.Data.Rat.Defs
import Mathlib.Tactic.Ring
import Mathlib.Tactic.Linarith

/-!
# Model of `flavio.math.optimize` and property theorems (C60)
-/
set_option linter.unusedSectionVars false
set_option linter.unusedSimpArgs false
set_option linter.unusedVariables false
namespace Verif.Optimize
open Verif.Py

variable {X K : Type} [AddGroup K] [LT K] [DecidableLT K]

/-- Result of a minimiser: `success`, `x`, `fun`. (Used for `iter`, /repo/flavio/math/optimize.py:28-54.) -/
structure Opt (X K : Type) where
  success : Bool
  x : X
  val : K

/-- One call of an external minimiser (`scipy.optimize.minimize` or MIGRAD): method and starting
point. (Used for `iter`, /repo/flavio/math/optimize.py:28-54.) -/
structure Call (X : Type) where
  method : String
  start : X

/-- State of the loop: calls made so far (latest first), `opt` (unbound at first), `_x0`.
(Used for `iter`, /repo/flavio/math/optimize.py:28-54.) -/
structure St (X K : Type) where
  calls : List (Call X)
  opt : Option (Opt X K)
  x0' : X

/-- One iteration of the inner loop: returns the state and whether the function returns here.
`solve n f c` is the result of the `n`-th external call on the function `f`.  `iminuit` tells whether
MIGRAD is installed.  The variables `_x0` and `_val` are as in the code: `_x0` is assigned but the next
call starts from `x0`; `_val` is never updated.  /repo/flavio/math/optimize.py:28-54. -/
def iter (iminuit : Bool) (solve : Nat → (X → K) → Call X → Opt X K) (f : X → K) (x0 : X)
    (s : St X K) (m : String) : St X K × Bool :=
  if m = "MIGRAD" ∧ iminuit = false then (s, false)
  else
    let c : Call X := ⟨m, x0⟩
    let o := solve s.calls.length f c
    let s' : St X K := ⟨c :: s.calls, some o, if o.val < f x0 then o.x else s.x0'⟩
    (s', o.success)

/-- The two nested loops, flattened: `ms` is the sequence of methods still to be tried.
(Used for `minimizeRobust`, /repo/flavio/math/optimize.py:6-55.) -/
def loop (iminuit : Bool) (solve : Nat → (X → K) → Call X → Opt X K) (f : X → K) (x0 : X) :
    List String → St X K → St X K
  | [], s => s
  | m :: ms, s =>
    match iter iminuit solve f x0 s m with
    | (s', true) => s'
    | (s', false) => loop iminuit solve f x0 ms s'

/-- Default methods.  /repo/flavio/math/optimize.py:26-27. -/
def defaultMethods : List String := ["SLSQP", "MIGRAD", "BFGS", "Nelder-Mead"]

/-- `minimize_robust`: the result (`UnboundLocalError` if no method was run) and the external calls in
time order.  /repo/flavio/math/optimize.py:6-55. -/
def minimizeRobust (iminuit : Bool) (solve : Nat → (X → K) → Call X → Opt X K) (f : X → K) (x0 : X)
    (methods : Option (List String)) (tries : Nat) : Except PyErr (Opt X K) × List (Call X) :=
  let ms := methods.getD defaultMethods
  let s := loop iminuit solve f x0 (List.replicate tries ms).flatten ⟨[], none, x0⟩
  (match s.opt with
    | some o => .ok o
    | none => .error .unboundLocalError, s.calls.reverse)

/-- `maximize_robust`.  /repo/flavio/math/optimize.py:57-68. -/
def maximizeRobust (iminuit : Bool) (solve : Nat → (X → K) → Call X → Opt X K) (f : X → K) (x0 : X)
    (methods : Option (List String)) (tries : Nat) : Except PyErr (Opt X K) × List (Call X) :=
  let r := minimizeRobust iminuit solve (fun x => -f x) x0 methods tries
  (r.1 >>= fun o => .ok { o with val := -o.val }, r.2)

/-! ## Specification -/

/-- The methods to be run, in order: the list repeated `tries` times, without MIGRAD if it is not
installed. Used for /repo/flavio/math/optimize.py:6-52. -/
def schedule (iminuit : Bool) (methods : Option (List String)) (tries : Nat) : List String :=
  ((List.replicate tries (methods.getD ["SLSQP", "MIGRAD", "BFGS", "Nelder-Mead"])).flatten).filter
    fun m => decide (m ≠ "MIGRAD") || iminuit

/-- The `i`-th external call of a run that starts every method at `x0`.
Used for /repo/flavio/math/optimize.py:6-52. -/
def resultAt (solve : Nat → (X → K) → Call X → Opt X K) (f : X → K) (x0 : X) (i : Nat) (m : String) :
    Opt X K := solve i f ⟨m, x0⟩

theorem iter_skip (solve : Nat → (X → K) → Call X → Opt X K) (f : X → K) (x0 : X) (s : St X K) :
    iter false solve f x0 s "MIGRAD" = (s, false) := by
  unfold iter
  rw [if_pos ⟨rfl, rfl⟩]

theorem iter_run (iminuit : Bool) (solve : Nat → (X → K) → Call X → Opt X K) (f : X → K) (x0 : X)
    (s : St X K) (m : String) (h : ¬(m = "MIGRAD" ∧ iminuit = false)) :
    (iter iminuit solve f x0 s m).1.calls = ⟨m, x0⟩ :: s.calls ∧
    (iter iminuit solve f x0 s m).1.opt = some (resultAt solve f x0 s.calls.length m) ∧
    (iter iminuit solve f x0 s m).2 = (resultAt solve f x0 s.calls.length m).success := by
  unfold iter
  rw [if_neg h]
  exact ⟨rfl, rfl, rfl⟩

/-- The loop for an arbitrary sequence of methods: either some call succeeds — then the calls are the
methods up to and including the first successful one — or all fail. -/
theorem loop_spec (iminuit : Bool) (solve : Nat → (X → K) → Call X → Opt X K) (f : X → K) (x0 : X)
    (ms : List String) (s : St X K) :
    let L := ms.filter fun m => decide (m ≠ "MIGRAD") || iminuit
    let s' := loop iminuit solve f x0 ms s
    let n := s.calls.length
    (∃ j m, L[j]? = some m ∧ (resultAt solve f x0 (n + j) m).success = true ∧
      (∀ i m', i < j → L[i]? = some m' → (resultAt solve f x0 (n + i) m').success = false) ∧
      s'.opt = some (resultAt solve f x0 (n + j) m) ∧
      s'.calls = ((L.take (j + 1)).map fun m => (⟨m, x0⟩ : Call X)).reverse ++ s.calls) ∨
    ((∀ i m', L[i]? = some m' → (resultAt solve f x0 (n + i) m').success = false) ∧
      s'.opt = (match L.getLast? with
        | some m => some (resultAt solve f x0 (n + (L.length - 1)) m)
        | none => s.opt) ∧
      s'.calls = (L.map fun m => (⟨m, x0⟩ : Call X)).reverse ++ s.calls) := by
  induction ms generalizing s with
  | nil => right; simp [loop]
  | cons m ms ih =>
    by_cases hm : m = "MIGRAD" ∧ iminuit = false
    · obtain ⟨rfl, rfl⟩ := hm
      have h1 : loop false solve f x0 ("MIGRAD" :: ms) s = loop false solve f x0 ms s := by
        conv_lhs => unfold loop
        rw [iter_skip]
      have h2 : ("MIGRAD" :: ms).filter (fun m => decide (m ≠ "MIGRAD") || false) =
          ms.filter (fun m => decide (m ≠ "MIGRAD") || false) := by
        rw [List.filter_cons]; simp
      simp only [h1, h2]
      exact ih s
    · have hkeep : (decide (m ≠ "MIGRAD") || iminuit) = true := by
        by_cases h : m = "MIGRAD"
        · cases hi : iminuit
          · exact absurd ⟨h, hi⟩ hm
          · simp
        · simp [h]
      have h2 : (m :: ms).filter (fun m => decide (m ≠ "MIGRAD") || iminuit) =
          m :: ms.filter (fun m => decide (m ≠ "MIGRAD") || iminuit) := by
        rw [List.filter_cons, if_pos hkeep]
      simp only [h2]
      obtain ⟨hc, ho, hs⟩ := iter_run iminuit solve f x0 s m hm
      rcases hit : iter iminuit solve f x0 s m with ⟨s1, b⟩
      rw [hit] at hc ho hs
      simp only at hc ho hs
      cases b with
      | true =>
        have h1 : loop iminuit solve f x0 (m :: ms) s = s1 := by
          conv_lhs => unfold loop
          rw [hit]
        left
        refine ⟨0, m, rfl, hs.symm, by intro i m' hi; omega, ?_, ?_⟩
        · rw [h1, ho]; rfl
        · rw [h1, hc]; simp
      | false =>
        have h1 : loop iminuit solve f x0 (m :: ms) s = loop iminuit solve f x0 ms s1 := by
          conv_lhs => unfold loop
          rw [hit]
        rw [h1]
        have hlen : s1.calls.length = s.calls.length + 1 := by rw [hc]; rfl
        rcases ih s1 with ⟨j, m', hj, hsuc, hbef, hopt, hcal⟩ | ⟨hall, hopt, hcal⟩
        · left
          have e : ∀ i, s1.calls.length + i = s.calls.length + (i + 1) := by intro i; omega
          refine ⟨j + 1, m', by simpa using hj, by rw [← e]; exact hsuc, ?_, by rw [← e]; exact hopt, ?_⟩
          · intro i m'' hi hm''
            cases i with
            | zero =>
              simp only [List.getElem?_cons_zero, Option.some.injEq] at hm''
              subst hm''
              exact hs.symm
            | succ i =>
              rw [← e]
              exact hbef i m'' (by omega) (by simpa using hm'')
          · rw [hcal, hc]; simp
        · right
          have e : ∀ i, s1.calls.length + i = s.calls.length + (i + 1) := by intro i; omega
          refine ⟨?_, ?_, by rw [hcal, hc]; simp⟩
          · intro i m'' hm''
            cases i with
            | zero =>
              simp only [List.getElem?_cons_zero, Option.some.injEq] at hm''
              subst hm''
              exact hs.symm
            | succ i =>
              rw [← e]
              exact hall i m'' (by simpa using hm'')
          · rw [hopt]
            generalize (ms.filter fun m => decide (m ≠ "MIGRAD") || iminuit) = L
            cases L with
            | nil => simpa using ho
            | cons a L =>
              rw [List.getLast?_cons_cons]
              cases hl : (a :: L).getLast? with
              | none => simp at hl
              | some z =>
                simp only [List.length_cons, Nat.add_sub_cancel]
                rw [e]

/-- **C60 (first success).** If method number `j` of the schedule (methods in the given order, repeated
`tries` times) is the first that reports success, `minimize_robust` returns its result, and exactly the
methods up to this one have been called, in order. -/
theorem C60_first_success_partial (iminuit : Bool) (solve : Nat → (X → K) → Call X → Opt X K)
    (f : X → K) (x0 : X) (methods : Option (List String)) (tries : Nat) (j : Nat) (m : String)
    (hj : (schedule iminuit methods tries)[j]? = some m)
    (hs : (resultAt solve f x0 j m).success = true)
    (hb : ∀ i m', i < j → (schedule iminuit methods tries)[i]? = some m' →
      (resultAt solve f x0 i m').success = false) :
    minimizeRobust iminuit solve f x0 methods tries = (.ok (resultAt solve f x0 j m),
      ((schedule iminuit methods tries).take (j + 1)).map fun m => ⟨m, x0⟩) := by
  have h := loop_spec iminuit solve f x0 (List.replicate tries (methods.getD defaultMethods)).flatten
    ⟨[], none, x0⟩
  unfold minimizeRobust
  simp only [List.length_nil, Nat.zero_add, List.append_nil] at h ⊢
  rcases h with ⟨j', m', hj', hsuc, hbef, hopt, hcal⟩ | ⟨hall, -, -⟩
  · have hjj : j' = j := by
      rcases Nat.lt_trichotomy j' j with h | h | h
      · have := hb j' m' h hj'
        rw [this] at hsuc; cases hsuc
      · exact h
      · have := hbef j m h hj
        rw [hs] at this; cases this
    subst hjj
    have hmm : m' = m := by
      have : some m' = some m := hj'.symm.trans hj
      exact Option.some.inj this
    subst hmm
    rw [hopt, hcal, List.reverse_reverse]
    rfl
  · have := hall j m hj
    rw [hs] at this; cases this

/-- **C60 (giving up).** If no method succeeds, all of the schedule is run and the result of the last
call is returned; `UnboundLocalError` if the schedule is empty. -/
theorem C60_no_success_partial (iminuit : Bool) (solve : Nat → (X → K) → Call X → Opt X K)
    (f : X → K) (x0 : X) (methods : Option (List String)) (tries : Nat)
    (hb : ∀ i m', (schedule iminuit methods tries)[i]? = some m' →
      (resultAt solve f x0 i m').success = false) :
    minimizeRobust iminuit solve f x0 methods tries =
      (match (schedule iminuit methods tries).getLast? with
        | some m => .ok (resultAt solve f x0 ((schedule iminuit methods tries).length - 1) m)
        | none => .error .unboundLocalError,
      (schedule iminuit methods tries).map fun m => ⟨m, x0⟩) := by
  have h := loop_spec iminuit solve f x0 (List.replicate tries (methods.getD defaultMethods)).flatten
    ⟨[], none, x0⟩
  unfold minimizeRobust
  simp only [List.length_nil, Nat.zero_add, List.append_nil] at h ⊢
  rcases h with ⟨j', m', hj', hsuc, -, -, -⟩ | ⟨-, hopt, hcal⟩
  · have := hb j' m' hj'
    rw [this] at hsuc; cases hsuc
  · rw [hopt, hcal, List.reverse_reverse]
    unfold schedule defaultMethods
    cases (((List.replicate tries
        (methods.getD ["SLSQP", "MIGRAD", "BFGS", "Nelder-Mead"])).flatten).filter
      fun m => decide (m ≠ "MIGRAD") || iminuit).getLast? <;> rfl

/-- **C60: the restart claim is false of the code.**  Whatever the minimisers return, *every* call
starts from the original `x0`; improved endpoints are never used. -/
theorem C60_never_restarts (iminuit : Bool) (solve : Nat → (X → K) → Call X → Opt X K)
    (f : X → K) (x0 : X) (methods : Option (List String)) (tries : Nat) :
    ∀ c ∈ (minimizeRobust iminuit solve f x0 methods tries).2, c.start = x0 := by
  have h := loop_spec iminuit solve f x0 (List.replicate tries (methods.getD defaultMethods)).flatten
    ⟨[], none, x0⟩
  unfold minimizeRobust
  simp only [List.append_nil] at h ⊢
  intro c hc
  rcases h with ⟨j', m', -, -, -, -, hcal⟩ | ⟨-, -, hcal⟩ <;>
  · rw [hcal, List.mem_reverse, List.mem_reverse] at hc
    obtain ⟨m, -, rfl⟩ := List.mem_map.1 hc
    rfl

/-- **C60 (maximisation).** `maximize_robust` makes the same external calls as minimising the negated
function and returns the same endpoint with the negated function value; if the minimisers report the
value of their function at the endpoint, the returned value is the value of `f` there. -/
theorem C60_maximize {K : Type} [AddGroup K] [LT K] [DecidableLT K] (iminuit : Bool)
    (solve : Nat → (X → K) → Call X → Opt X K) (f : X → K)
    (x0 : X) (methods : Option (List String)) (tries : Nat) (o : Opt X K)
    (h : (maximizeRobust iminuit solve f x0 methods tries).1 = .ok o)
    (hval : ∀ n g c, (solve n g c).val = g (solve n g c).x) :
    (∃ o', (minimizeRobust iminuit solve (fun x => -f x) x0 methods tries).1 = .ok o' ∧
      o'.x = o.x ∧ o'.success = o.success ∧ o'.val = -o.val) ∧ o.val = f o.x := by
  unfold maximizeRobust at h
  simp only at h
  obtain ⟨o', ho', h⟩ := bind_eq_ok h
  cases h
  refine ⟨⟨o', ho', rfl, rfl, by simp⟩, ?_⟩
  show -o'.val = f o'.x
  have hv : o'.val = -f o'.x := by
    have hspec := loop_spec iminuit solve (fun x => -f x) x0
      (List.replicate tries (methods.getD defaultMethods)).flatten ⟨[], none, x0⟩
    unfold minimizeRobust at ho'
    simp only at ho' hspec
    rcases hspec with ⟨j, m, -, -, -, hopt, -⟩ | ⟨-, hopt, -⟩
    · rw [hopt] at ho'
      cases ho'
      exact hval _ _ _
    · rw [hopt] at ho'
      cases hl : (((List.replicate tries (methods.getD defaultMethods)).flatten).filter
          fun m => decide (m ≠ "MIGRAD") || iminuit).getLast? with
      | none => rw [hl] at ho'; cases ho'
      | some z =>
        rw [hl] at ho'
        cases ho'
        exact hval _ _ _
  rw [hv, neg_neg]

/-- A minimiser that always fails but improves: it moves towards 0 by one unit. (Specification.) -/
def exSolve (n : Nat) (f : Int → Int) (c : Call Int) : Opt Int Int :=
  ⟨decide (c.method = "Nelder-Mead" ∧ 3 ≤ n), c.start - 1, f (c.start - 1)⟩

example : ((minimizeRobust false exSolve (fun x => x * x) 5 none 2).2.map
      fun c => (c.method, c.start)) =
    [("SLSQP", 5), ("BFGS", 5), ("Nelder-Mead", 5), ("SLSQP", 5), ("BFGS", 5), ("Nelder-Mead", 5)] ∧
    ((minimizeRobust false exSolve (fun x => x * x) 5 none 2).1.map
      fun o => (o.success, o.x, o.val)) = .ok (true, 4, 16) ∧
    ((maximizeRobust false exSolve (fun x => -(x * x)) 5 none 2).1.map
      fun o => (o.x, o.val)) = .ok (4, -16) ∧
    schedule false none 2 = ["SLSQP", "BFGS", "Nelder-Mead", "SLSQP", "BFGS", "Nelder-Mead"] := by
  decide +kernel

end Verif.Optimize
