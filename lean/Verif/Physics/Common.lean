import Mathlib.Data.Complex.Basic
import Mathlib.Tactic.Linarith
import Mathlib.Tactic.Ring
import Mathlib.Algebra.BigOperators.Group.List.Basic
import Verif.Py.Dict
import Verif.Py.ExceptLemmas
/-!
# Common physics helpers (`flavio/physics/common.py`)
-/
set_option linter.unusedVariables false
namespace Verif.Common
open Verif.Py

/-- The value of a CP-odd parameter is negated, others are kept.
(Used for `conjugatePar`, /repo/flavio/physics/common.py:5-12.) -/
def conjVal (e : String × ℝ) : String × ℝ := (e.1, if e.1 ∈ ["gamma", "delta"] then -e.2 else e.2)

/-- `conjugate_par`.  /repo/flavio/physics/common.py:5-12. -/
def conjugatePar (d : Dict String ℝ) : Dict String ℝ := d.map conjVal

/-- One entry of `conjugate_wc`. (Used for `conjugateWc`, /repo/flavio/physics/common.py:14-18.) -/
def conjWcVal (e : String × ℂ) : String × ℂ := (e.1, (starRingEnd ℂ) e.2)

/-- `conjugate_wc`.  /repo/flavio/physics/common.py:14-18. -/
def conjugateWc (d : Dict String ℂ) : Dict String ℂ := d.map conjWcVal

section
variable {K V : Type} [DecidableEq K] [AddCommMonoid V]

/-- One step of `Counter.update` on a non-empty counter: `self[elem] = count + self.get(elem, 0)`.
(Used for `counterUpdate`, /repo/flavio/physics/common.py:20-37.) -/
def counterAdd (d : Dict K V) (e : K × V) : Dict K V :=
  Dict.set d e.1 (e.2 + (Dict.get? d e.1).getD 0)

/-- `Counter.update` with a mapping: adds, unless the counter is empty, when it copies.
(Used for `addDict`, /repo/flavio/physics/common.py:20-37.) -/
def counterUpdate (d e : Dict K V) : Dict K V :=
  if d = [] then e.foldl (fun d p => Dict.set d p.1 p.2) [] else e.foldl counterAdd d

/-- `add_dict`.  /repo/flavio/physics/common.py:20-37. -/
def addDict : List (Dict K V) → Except PyErr (Dict K V)
  | [] => .error .indexError
  | d :: l => .ok (l.foldl counterUpdate d)
end

/-- The argument of the square root. (Used for `lambdaK`, /repo/flavio/physics/common.py:40-50.) -/
def kallen (a b c : ℝ) : ℝ := a ^ 2 + b ^ 2 + c ^ 2 - 2 * (a * b + b * c + a * c)

/-- `lambda_K`.  /repo/flavio/physics/common.py:40-50. -/
noncomputable def lambdaK (a b c : ℝ) : ℝ := if kallen a b c < 0 then 0 else kallen a b c

/-! ## Conjugation -/

/-- **C66 (`conjugate_par`).** Applying it twice gives the dictionary back; the keys (and their order) are
unchanged; exactly the values of `gamma` and `delta` are negated. -/
theorem C66_conjugate_par (d : Dict String ℝ) :
    conjugatePar (conjugatePar d) = d ∧ Dict.keys (conjugatePar d) = Dict.keys d ∧
    ∀ k, Dict.get? (conjugatePar d) k =
      if k = "gamma" ∨ k = "delta" then (Dict.get? d k).map (fun v => -v) else Dict.get? d k := by
  refine ⟨?_, ?_, fun k => ?_⟩
  · unfold conjugatePar
    rw [List.map_map]
    conv_rhs => rw [← List.map_id d]
    apply List.map_congr_left
    rintro ⟨k, v⟩ -
    simp only [Function.comp, conjVal, id]
    split_ifs <;> simp
  · unfold conjugatePar Dict.keys
    rw [List.map_map]; rfl
  · induction d with
    | nil => simp [conjugatePar]
    | cons e d ih =>
      obtain ⟨a, b⟩ := e
      show Dict.get? (conjVal (a, b) :: conjugatePar d) k = _
      unfold conjVal
      rw [Dict.get?_cons, Dict.get?_cons, ih]
      by_cases h : a = k
      · subst h
        simp only [if_true, List.mem_cons, List.not_mem_nil, or_false]
        split_ifs <;> rfl
      · simp only [h, if_false]

/-- **C66 (`conjugate_wc`).** An involution that keeps the keys and conjugates every value. -/
theorem C66_conjugate_wc (d : Dict String ℂ) :
    conjugateWc (conjugateWc d) = d ∧ Dict.keys (conjugateWc d) = Dict.keys d ∧
    ∀ k, Dict.get? (conjugateWc d) k = (Dict.get? d k).map (starRingEnd ℂ) := by
  refine ⟨?_, ?_, fun k => ?_⟩
  · unfold conjugateWc
    rw [List.map_map]
    conv_rhs => rw [← List.map_id d]
    apply List.map_congr_left
    rintro ⟨k, v⟩ -
    simp [Function.comp, conjWcVal]
  · unfold conjugateWc Dict.keys
    rw [List.map_map]; rfl
  · induction d with
    | nil => simp [conjugateWc]
    | cons e d ih =>
      obtain ⟨a, b⟩ := e
      show Dict.get? (conjWcVal (a, b) :: conjugateWc d) k = _
      unfold conjWcVal
      rw [Dict.get?_cons, Dict.get?_cons, ih]
      by_cases h : a = k
      · simp [h]
      · simp [h]

/-! ## `add_dict` -/
section
variable {K V : Type} [DecidableEq K] [AddCommMonoid V]

theorem counterAdd_foldl (e d : Dict K V) (he : Dict.WF e) (k : K) :
    (Dict.get? (e.foldl counterAdd d) k).getD 0 = (Dict.get? d k).getD 0 + (Dict.get? e k).getD 0 ∧
    (k ∈ Dict.keys (e.foldl counterAdd d) ↔ k ∈ Dict.keys d ∨ k ∈ Dict.keys e) := by
  induction e generalizing d with
  | nil => simp
  | cons p e ih =>
    obtain ⟨a, b⟩ := p
    simp only [Dict.WF, Dict.keys_cons, List.nodup_cons] at he
    obtain ⟨i1, i2⟩ := ih (counterAdd d (a, b)) he.2
    rw [List.foldl_cons, i1, i2]
    constructor
    · unfold counterAdd
      rw [Dict.get?_set, Dict.get?_cons]
      by_cases h : a = k
      · subst h
        have : Dict.get? e a = none := (Dict.get?_eq_none_iff _ _).2 he.1
        simp [this, add_comm]
      · simp [h]
    · unfold counterAdd
      rw [Dict.mem_keys_set]
      simp only [Dict.keys_cons, List.mem_cons]
      tauto

theorem counterUpdate_spec (e d : Dict K V) (he : Dict.WF e) (k : K) :
    (Dict.get? (counterUpdate d e) k).getD 0 = (Dict.get? d k).getD 0 + (Dict.get? e k).getD 0 ∧
    (k ∈ Dict.keys (counterUpdate d e) ↔ k ∈ Dict.keys d ∨ k ∈ Dict.keys e) := by
  unfold counterUpdate
  split_ifs with h
  · subst h
    have : (e.foldl (fun d p => Dict.set d p.1 p.2) []) = e := Dict.ofPairs_of_nodup e he
    rw [this]; simp
  · exact counterAdd_foldl e d he k

/-- **C66 (`add_dict`).** For every non-empty list of dictionaries, the result has exactly the keys of
the given dictionaries, and the value of a key is the sum of its values in those that have it.  An empty
list raises `IndexError`. -/
theorem C66_add_dict (l : List (Dict K V)) (hl : ∀ d ∈ l, Dict.WF d) :
    (l = [] → addDict l = .error .indexError) ∧
    (l ≠ [] → ∃ r, addDict l = .ok r ∧
      (∀ k, k ∈ Dict.keys r ↔ ∃ d ∈ l, k ∈ Dict.keys d) ∧
      (∀ k, (Dict.get? r k).getD 0 = (l.map fun d => (Dict.get? d k).getD 0).sum)) := by
  constructor
  · rintro rfl; rfl
  · intro hne
    obtain ⟨d, l, rfl⟩ := List.exists_cons_of_ne_nil hne
    refine ⟨_, rfl, ?_⟩
    have gen : ∀ (l : List (Dict K V)) (d : Dict K V), (∀ e ∈ l, Dict.WF e) →
        (∀ k, k ∈ Dict.keys (l.foldl counterUpdate d) ↔ k ∈ Dict.keys d ∨ ∃ e ∈ l, k ∈ Dict.keys e) ∧
        (∀ k, (Dict.get? (l.foldl counterUpdate d) k).getD 0 =
          (Dict.get? d k).getD 0 + (l.map fun e => (Dict.get? e k).getD 0).sum) := by
      intro l
      induction l with
      | nil => intro d _; simp
      | cons e l ih =>
        intro d h
        obtain ⟨i1, i2⟩ := ih (counterUpdate d e) (fun x hx => h x (List.mem_cons_of_mem _ hx))
        have sp := counterUpdate_spec e d (h e (List.mem_cons_self ..))
        refine ⟨fun k => ?_, fun k => ?_⟩
        · rw [List.foldl_cons, i1, (sp k).2]
          simp only [List.mem_cons, exists_eq_or_imp]
          tauto
        · rw [List.foldl_cons, i2, (sp k).1, List.map_cons, List.sum_cons, add_assoc]
    obtain ⟨g1, g2⟩ := gen l d (fun x hx => hl x (List.mem_cons_of_mem _ hx))
    refine ⟨fun k => ?_, fun k => ?_⟩
    · rw [g1]; simp
    · rw [g2]; simp

end

/-- The example of the docstring. -/
example : addDict [[("a", (1 : ℤ)), ("b", 2), ("c", 3)], [("b", 3), ("c", 4), ("d", 5)]] =
    .ok [("a", 1), ("b", 5), ("c", 7), ("d", 5)] := by decide +kernel

/-! ## The Källén function -/

/-- **C66 (`lambda_K`).** Never negative (so that its square root exists), symmetric under any exchange of
its arguments, and homogeneous of degree two. -/
theorem C66_lambda (a b c t : ℝ) (ht : 0 ≤ t) :
    0 ≤ lambdaK a b c ∧ lambdaK a b c = lambdaK b a c ∧ lambdaK a b c = lambdaK a c b ∧
    lambdaK (t * a) (t * b) (t * c) = t ^ 2 * lambdaK a b c := by
  have s1 : kallen a b c = kallen b a c := by unfold kallen; ring
  have s2 : kallen a b c = kallen a c b := by unfold kallen; ring
  have s3 : kallen (t * a) (t * b) (t * c) = t ^ 2 * kallen a b c := by unfold kallen; ring
  refine ⟨?_, ?_, ?_, ?_⟩
  · unfold lambdaK; split_ifs with h
    · exact le_rfl
    · exact not_lt.1 h
  · unfold lambdaK; rw [s1]
  · unfold lambdaK; rw [s2]
  · unfold lambdaK; rw [s3]
    rcases eq_or_lt_of_le ht with rfl | ht
    · split_ifs <;> simp
    · have h2 : 0 < t ^ 2 := by positivity
      by_cases h : kallen a b c < 0
      · rw [if_pos h, if_pos (mul_neg_of_pos_of_neg h2 h), mul_zero]
      · rw [if_neg h, if_neg (not_lt.2 (mul_nonneg h2.le (not_lt.1 h)))]

/-- **C66 (`lambda_K` of squared masses).** For masses `M, m₁, m₂ ≥ 0`: in the physical region of the decay
(`m₁ + m₂ ≤ M`) the value is the product `(M² - (m₁+m₂)²)(M² - (m₁-m₂)²)`, vanishing exactly at threshold
when both masses are positive; between the thresholds (`|m₁-m₂| < M < m₁+m₂`) it is zero. -/
theorem C66_lambda_masses (M m₁ m₂ : ℝ) (h0 : 0 < M) (h1 : 0 < m₁) (h2 : 0 < m₂) :
    (m₁ + m₂ ≤ M → lambdaK (M ^ 2) (m₁ ^ 2) (m₂ ^ 2) =
        (M ^ 2 - (m₁ + m₂) ^ 2) * (M ^ 2 - (m₁ - m₂) ^ 2) ∧
      (lambdaK (M ^ 2) (m₁ ^ 2) (m₂ ^ 2) = 0 ↔ M = m₁ + m₂)) ∧
    (|m₁ - m₂| < M → M < m₁ + m₂ → lambdaK (M ^ 2) (m₁ ^ 2) (m₂ ^ 2) = 0) := by
  have e : kallen (M ^ 2) (m₁ ^ 2) (m₂ ^ 2) = (M ^ 2 - (m₁ + m₂) ^ 2) * (M ^ 2 - (m₁ - m₂) ^ 2) := by
    unfold kallen; ring
  constructor
  · intro h
    have p1 : 0 ≤ M ^ 2 - (m₁ + m₂) ^ 2 := by nlinarith
    have p2 : 0 < M ^ 2 - (m₁ - m₂) ^ 2 := by nlinarith
    have hv : lambdaK (M ^ 2) (m₁ ^ 2) (m₂ ^ 2) = (M ^ 2 - (m₁ + m₂) ^ 2) * (M ^ 2 - (m₁ - m₂) ^ 2) := by
      unfold lambdaK
      rw [e, if_neg (not_lt.2 (mul_nonneg p1 p2.le))]
    refine ⟨hv, ?_⟩
    rw [hv, mul_eq_zero, or_iff_left p2.ne']
    constructor
    · intro h'
      have : M ^ 2 = (m₁ + m₂) ^ 2 := by linarith
      exact (pow_left_inj₀ h0.le (by linarith) two_ne_zero).1 this
    · rintro rfl; ring
  · intro ha hb
    have p1 : M ^ 2 - (m₁ + m₂) ^ 2 < 0 := by nlinarith
    have p2 : 0 < M ^ 2 - (m₁ - m₂) ^ 2 := by
      have := abs_lt.1 ha
      nlinarith [this.1, this.2]
    unfold lambdaK
    rw [e, if_pos (mul_neg_of_neg_of_pos p1 p2)]

example : (lambdaK (5 ^ 2) (1 ^ 2) (2 ^ 2) = 384) := by
  unfold lambdaK kallen; norm_num

end Verif.Common
