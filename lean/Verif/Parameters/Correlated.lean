import Verif.Parameters.Theorems
/-!
# C100: groups of correlated parameters
-/
set_option linter.unusedSectionVars false
set_option linter.unusedSimpArgs false
set_option linter.unusedVariables false
namespace Verif.Parameters
open Verif.Py Verif.Constraints Verif.Measurements

variable {D : Type}

/-! ## specification -/

/-- What the items of the dictionaries say: name, central value and total error (`σ ≥ 0`, `σ²` the quadrature sum) of the
first item. (Specification.) -/
def Says (reg : List String) (items : List (String × List Char)) (name : String) (c : ℚ) (σ : ℝ) : Prop :=
  ∃ str rest er, items = (name, str) :: rest ∧ name ∈ reg ∧ Parse.errorsFromString str = .ok er ∧
    c = er.central ∧ 0 ≤ σ ∧ σ ^ 2 = ((quadrature er : ℚ) : ℝ)

theorem entryOf_ok {reg : List String} {items : List (String × List Char)} {e : String × ℚ × ℝ}
    (h : entryOf reg items = .ok e) : Says reg items e.1 e.2.1 e.2.2 := by
  unfold entryOf at h
  split at h
  · cases h
  · rename_i a l
    split at h
    · rename_i hm
      obtain ⟨er, h1, h⟩ := bind_ok h
      obtain ⟨sd, h2, h⟩ := bind_ok h
      cases h
      unfold pySqrt at h2
      rw [squaredError_eq] at h2
      split at h2
      · cases h2
      · rename_i hneg
        cases h2
        refine ⟨a.2, l, er, rfl, hm, h1, rfl, Real.sqrt_nonneg _, Real.sq_sqrt ?_⟩
        exact_mod_cast not_lt.1 hneg
    · cases h

theorem entryOf_of_says {reg : List String} {items : List (String × List Char)} {n : String} {c : ℚ} {σ : ℝ}
    (h : Says reg items n c σ) : entryOf reg items = .ok (n, c, σ) := by
  obtain ⟨str, rest, er, rfl, hm, he, rfl, h0, h2⟩ := h
  unfold entryOf
  simp only [hm, if_true]
  rw [he]
  show (pySqrt (squaredError er) >>= fun sd => Except.ok (n, er.central, sd)) = _
  rw [squaredError_eq]
  have hq : 0 ≤ quadrature er := by
    have : (0 : ℝ) ≤ ((quadrature er : ℚ) : ℝ) := by rw [← h2]; exact sq_nonneg _
    exact_mod_cast this
  unfold pySqrt
  rw [if_neg (not_lt.2 hq), ← h2, Real.sqrt_sq h0]
  rfl

/-- Quadratic form. (Specification.) -/
def quad {n : Nat} (m : Mat n ℝ) (v : Fin n → ℝ) : ℝ := ∑ i, ∑ j, v i * m i j * v j

/-! ## lemmas -/

theorem quad_eq {n : Nat} (m : Mat n ℝ) (v : Fin n → ℝ) : quad m v = dotProduct v ((Matrix.of m).mulVec v) := by
  unfold quad dotProduct Matrix.mulVec dotProduct
  refine Finset.sum_congr rfl fun i _ => ?_
  rw [Finset.mul_sum]
  exact Finset.sum_congr rfl fun j _ => by simp [mul_assoc]

theorem posEig_iff {n : Nat} {m : Mat n ℝ} (hs : ∀ i j, m i j = m j i) :
    posEig m ↔ ∀ v, v ≠ 0 → 0 < quad m v := by
  have hh : (Matrix.of m).IsHermitian := by
    ext i j; simp [Matrix.conjTranspose, hs i j]
  have h1 : posEig m ↔ (Matrix.of m).PosDef := by
    rw [hh.posDef_iff_eigenvalues_pos]
    unfold posEig
    rw [hh.spectrum_real_eq_range_eigenvalues]
    simp
  rw [h1, Matrix.posDef_iff_dotProduct_mulVec]
  simp only [quad_eq]
  constructor
  · intro h v hv; simpa using h.2 hv
  · intro h; exact ⟨hh, fun v hv => by simpa using h v hv⟩

theorem quad_scale {n : Nat} (σ : Fin n → ℝ) (m : Mat n ℝ) (v : Fin n → ℝ) :
    quad (fun i j => σ i * σ j * m i j) v = quad m (fun i => σ i * v i) := by
  unfold quad
  refine Finset.sum_congr rfl fun i _ => Finset.sum_congr rfl fun j _ => ?_
  ring

theorem scaled_pos_iff {n : Nat} (σ : Fin n → ℝ) (hσ : ∀ i, 0 < σ i) (m : Mat n ℝ) :
    (∀ v, v ≠ 0 → 0 < quad (fun i j => σ i * σ j * m i j) v) ↔ ∀ v, v ≠ 0 → 0 < quad m v := by
  constructor
  · intro h v hv
    have := h (fun i => v i / σ i) (by
      intro h0
      apply hv
      funext i
      have := congrFun h0 i
      simp only [Pi.zero_apply, div_eq_zero_iff] at this
      rcases this with h | h
      · exact h
      · exact absurd h (hσ i).ne')
    rw [quad_scale] at this
    have e : (fun i => σ i * (v i / σ i)) = v := by
      funext i; rw [mul_div_assoc', mul_div_cancel_left₀ _ (hσ i).ne']
    rwa [e] at this
  · intro h v hv
    rw [quad_scale]
    refine h _ ?_
    intro h0
    apply hv
    funext i
    have := congrFun h0 i
    simp only [Pi.zero_apply, mul_eq_zero] at this
    rcases this with h | h
    · exact absurd h (hσ i).ne'
    · exact h

theorem quad_shrink {n : Nat} (m : Mat n ℝ) (v : Fin n → ℝ) :
    quad (shrink m) v = 0.99 * quad m v + 0.01 * ∑ i, v i ^ 2 := by
  unfold quad shrink
  have : ∀ i, ∑ j, v i * ((m i j - if i = j then 1 else 0) * 0.99 + if i = j then 1 else 0) * v j =
      0.99 * ∑ j, v i * m i j * v j + 0.01 * v i ^ 2 := by
    intro i
    have : ∀ j, v i * ((m i j - if i = j then 1 else 0) * 0.99 + if i = j then 1 else 0) * v j =
        0.99 * (v i * m i j * v j) + if i = j then 0.01 * v i ^ 2 else 0 := by
      intro j
      split
      · rename_i h; subst h; ring
      · ring
    simp only [this, Finset.sum_add_distrib, Finset.mul_sum, Finset.sum_ite_eq, Finset.mem_univ, if_true]
  simp only [this, Finset.sum_add_distrib, Finset.mul_sum]

theorem pow_pos_of_ne {x : ℝ} (h : x ≠ 0) : 0 < x ^ 2 := lt_of_le_of_ne (sq_nonneg x) (pow_ne_zero 2 h).symm

theorem sumsq_pos {n : Nat} {v : Fin n → ℝ} (hv : v ≠ 0) : 0 < ∑ i, v i ^ 2 := by
  obtain ⟨i, hi⟩ := Function.ne_iff.1 hv
  exact Finset.sum_pos' (fun i _ => sq_nonneg _) ⟨i, Finset.mem_univ i, pow_pos_of_ne (by simpa using hi)⟩

/-! ## theorems -/

open Classical in
theorem readGroup_eq {s : PS D} {g : Group} {es : List (String × ℚ × ℝ)} {c : Mat es.length ℝ}
    (he : g.values.mapM (entryOf s.reg) = .ok es) (hc : fixCorr g.corr es.length = .ok c) :
    readGroup s g =
      if posEig (covOf es c) then
        (s.add (es.map (·.1)) (.mvn es.length (fun i => ((es[i].2.1 : ℚ) : ℝ)) (covOf es c)), none)
      else if posEig (covOf es (shrink c)) then
        (s.add (es.map (·.1)) (.mvn es.length (fun i => ((es[i].2.1 : ℚ) : ℝ)) (covOf es (shrink c))), none)
      else (s, some .assertionError) := by
  have : (finish g.corr es : Except PyErr (PD D)) =
      if posEig (covOf es c) then .ok (.mvn es.length (fun i => ((es[i].2.1 : ℚ) : ℝ)) (covOf es c))
      else if posEig (covOf es (shrink c)) then
        .ok (.mvn es.length (fun i => ((es[i].2.1 : ℚ) : ℝ)) (covOf es (shrink c)))
      else .error .assertionError := by
    unfold finish; rw [hc]; rfl
  unfold readGroup
  rw [he]
  simp only
  rw [this]
  split_ifs <;> rfl

theorem finish_ok {corr : CorrArg ℝ} {es : List (String × ℚ × ℝ)} {d : PD D} (h : finish corr es = .ok d) :
    ∃ c k, fixCorr corr es.length = .ok c ∧
      ((k = c ∧ posEig (covOf es c)) ∨ (k = shrink c ∧ ¬ posEig (covOf es c) ∧ posEig (covOf es k))) ∧
      d = .mvn es.length (fun i => ((es[i].2.1 : ℚ) : ℝ)) (covOf es k) := by
  obtain ⟨c, hc, h⟩ := bind_ok h
  split at h
  · rename_i hp; cases h; exact ⟨c, c, hc, Or.inl ⟨rfl, hp⟩, rfl⟩
  · rename_i hp
    split at h
    · rename_i hp2; cases h; exact ⟨c, shrink c, hc, Or.inr ⟨rfl, hp, hp2⟩, rfl⟩
    · cases h

/-- **C100 (correlated group)** When a group has been read, its parameters, in order, are the components of one multivariate
normal distribution: the central values are those of the file, the variances the quadrature sums of the errors, and
the correlations those of the file or, if these do not give a positive covariance, all of them times 0.99.  The
covariance has only positive eigenvalues.  No other parameter is touched. -/
theorem C100_group (s s' : PS D) (hg : s.Good) (g : Group) (h : readGroup s g = (s', none)) :
    ∃ (es : List (String × ℚ × ℝ)) (c : Mat es.length ℝ) (cov : Mat es.length ℝ) (f : ℝ),
      List.Forall₂ (fun items e => Says s.reg items e.1 e.2.1 e.2.2) g.values es ∧
      fixCorr g.corr es.length = .ok c ∧ (∀ i, cov i i = es[i].2.2 ^ 2) ∧
      (∀ i j, i ≠ j → cov i j = es[i].2.2 * es[j].2.2 * (f * c i j)) ∧
      (f = 1 ∨ (f = 0.99 ∧ ¬ posEig (fun i j => es[i].2.2 * es[j].2.2 * c i j))) ∧ posEig cov ∧
      ((es.map (·.1)).Nodup → ∀ (i : Fin es.length),
        s'.view es[i].1 = some (i.1, .mvn es.length (fun i => ((es[i].2.1 : ℚ) : ℝ)) cov)) ∧
      (∀ p, p ∉ es.map (·.1) → s'.view p = s.view p) ∧ s'.reg = s.reg ∧ s'.Good := by
  unfold readGroup at h
  cases he : g.values.mapM (entryOf s.reg) with
  | error x => rw [he] at h; simp at h
  | ok es =>
    rw [he] at h
    simp only at h
    cases hf : (finish g.corr es : Except PyErr (PD D)) with
    | error x => rw [hf] at h; simp at h
    | ok d =>
      rw [hf] at h
      simp only [Prod.mk.injEq, and_true] at h
      subst h
      obtain ⟨c, k, hc, hk, rfl⟩ := finish_ok hf
      have hdiag := fixCorr_diag hc
      have hsays : List.Forall₂ (fun items e => Says s.reg items e.1 e.2.1 e.2.2) g.values es := by
        have := (mapM_ok_iff _ _ _).1 he
        exact this.imp fun a b h => entryOf_ok h
      have hkd : ∃ f : ℝ, (∀ i, k i i = 1) ∧ (∀ i j, i ≠ j → k i j = f * c i j) ∧
          (f = 1 ∨ (f = 0.99 ∧ ¬ posEig (covOf es c))) ∧ posEig (covOf es k) := by
        rcases hk with ⟨rfl, hp⟩ | ⟨rfl, hn, hp⟩
        · exact ⟨1, hdiag, fun i j _ => by rw [one_mul], Or.inl rfl, hp⟩
        · refine ⟨0.99, ?_, ?_, Or.inr ⟨rfl, hn⟩, hp⟩
          · intro i; unfold shrink; rw [hdiag i]; simp
          · intro i j hij; unfold shrink; rw [if_neg hij]; ring
      obtain ⟨f, k1, k2, k3, k4⟩ := hkd
      refine ⟨es, c, covOf es k, f, hsays, hc, ?_, ?_, k3, k4, ?_, ?_, rfl, good_add hg _ _⟩
      · intro i; unfold covOf; rw [k1, mul_one, sq]
      · intro i j hij; unfold covOf; rw [k2 i j hij]
      · intro hn i
        rw [view_add hg]
        have hm : es[i].1 ∈ es.map (·.1) := List.mem_map.2 ⟨es[i], by simp, rfl⟩
        rw [lastIdx_of_nodup hn hm]
        simp only
        have hi : (es.map (·.1)).idxOf es[i].1 = i.1 := by
          have h2 : (es.map (·.1))[i.1]'(by simp) = es[i].1 := by simp
          rw [← h2]
          exact hn.idxOf_getElem i.1 (by simp)
        rw [hi]
      · intro p hp
        rw [view_add hg]
        rw [(lastIdx_eq_none_iff _ _).2 hp]

/-- **C100 (correlated group, accepted)** With positive errors and a symmetric correlation matrix, a group is accepted if and
only if no quadratic form of the correlation matrix is as low as `-1/99` times the squared length.  In particular
every positive semidefinite correlation matrix is accepted; otherwise the error is `AssertionError` and nothing is changed. -/
theorem C100_group_accepted (s : PS D) (g : Group) (es : List (String × ℚ × ℝ)) (c : Mat es.length ℝ)
    (hv : List.Forall₂ (fun items e => Says s.reg items e.1 e.2.1 e.2.2) g.values es)
    (hc : fixCorr g.corr es.length = .ok c) (hsym : ∀ i j, c i j = c j i) (hpos : ∀ e ∈ es, 0 < e.2.2) :
    ((∃ s', readGroup s g = (s', none)) ↔ ∀ v : Fin es.length → ℝ, v ≠ 0 → -(1 / 99) * ∑ i, v i ^ 2 < quad c v) ∧
    ((∀ v, 0 ≤ quad c v) → ∃ s', readGroup s g = (s', none)) ∧
    ((¬ ∃ s', readGroup s g = (s', none)) → readGroup s g = (s, some .assertionError)) := by
  have he : g.values.mapM (entryOf s.reg) = .ok es := by
    rw [mapM_ok_iff]
    exact hv.imp fun a b h => entryOf_of_says h
  have hp : ∀ i : Fin es.length, 0 < es[i].2.2 := fun i => hpos _ (by simp)
  have hss : ∀ i j, shrink c i j = shrink c j i := by
    intro i j; unfold shrink; rw [hsym i j]; simp only [eq_comm]
  have e1 : posEig (covOf es c) ↔ ∀ v, v ≠ 0 → 0 < quad c v := by
    rw [posEig_iff (m := covOf es c) (by intro i j; unfold covOf; rw [hsym i j, mul_comm es[i].2.2])]
    exact scaled_pos_iff (fun i => es[i].2.2) hp c
  have e2 : posEig (covOf es (shrink c)) ↔ ∀ v, v ≠ 0 → 0 < quad (shrink c) v := by
    rw [posEig_iff (m := covOf es (shrink c)) (by intro i j; unfold covOf; rw [hss i j, mul_comm es[i].2.2])]
    exact scaled_pos_iff (fun i => es[i].2.2) hp (shrink c)
  have e3 : (∀ v, v ≠ 0 → 0 < quad (shrink c) v) ↔
      ∀ v : Fin es.length → ℝ, v ≠ 0 → -(1 / 99) * ∑ i, v i ^ 2 < quad c v := by
    refine forall_congr' fun v => imp_congr_right fun _ => ?_
    rw [quad_shrink]
    constructor <;> intro h <;> norm_num at h ⊢ <;> linarith
  have e4 : (∀ v, v ≠ 0 → 0 < quad c v) → ∀ v, v ≠ 0 → 0 < quad (shrink c) v := by
    intro h
    rw [e3]
    intro v hv
    have := h v hv
    have := sumsq_pos hv
    linarith
  have hiff : (∃ s', readGroup s g = (s', none)) ↔
      (∀ v : Fin es.length → ℝ, v ≠ 0 → -(1 / 99) * ∑ i, v i ^ 2 < quad c v) := by
    rw [← e3, readGroup_eq he hc]
    by_cases h1 : posEig (covOf es c)
    · rw [if_pos h1]
      simp only [Prod.mk.injEq, and_true, exists_eq']
      exact ⟨fun _ => e4 (e1.1 h1), fun _ => trivial⟩
    · rw [if_neg h1]
      by_cases h2 : posEig (covOf es (shrink c))
      · rw [if_pos h2]
        simp only [Prod.mk.injEq, and_true, exists_eq']
        exact ⟨fun _ => e2.1 h2, fun _ => trivial⟩
      · rw [if_neg h2]
        simp only [Prod.mk.injEq, reduceCtorEq, and_false, exists_false, false_iff]
        exact fun h => h2 (e2.2 h)
  refine ⟨hiff, ?_, ?_⟩
  · intro h
    rw [hiff]
    intro v hv
    have := h v
    have := sumsq_pos hv
    linarith
  · intro hno
    rw [readGroup_eq he hc] at hno ⊢
    by_cases h1 : posEig (covOf es c)
    · rw [if_pos h1] at hno; exact absurd ⟨_, rfl⟩ hno
    · rw [if_neg h1] at hno ⊢
      by_cases h2 : posEig (covOf es (shrink c))
      · rw [if_pos h2] at hno; exact absurd ⟨_, rfl⟩ hno
      · rw [if_neg h2]

theorem not_posEig_of_row {n : Nat} (m : Mat n ℝ) (i : Fin n) (h : ∀ j, m i j = 0) : ¬ posEig m := by
  intro hp
  have hd : (Matrix.of m).det = 0 := Matrix.det_eq_zero_of_row_eq_zero i (by simpa using h)
  have : (0 : ℝ) ∈ spectrum ℝ (Matrix.of m) := by
    rw [spectrum.zero_mem_iff, Matrix.isUnit_iff_isUnit_det, hd]
    simp
  exact lt_irrefl _ (hp 0 this)

/-- **C100 (correlated group, no error)** A parameter without uncertainty cannot be in a correlated group: `AssertionError`. -/
theorem C100_group_zero_error (s : PS D) (g : Group) (es : List (String × ℚ × ℝ)) (c : Mat es.length ℝ)
    (hv : List.Forall₂ (fun items e => Says s.reg items e.1 e.2.1 e.2.2) g.values es)
    (hc : fixCorr g.corr es.length = .ok c) (hz : ∃ e ∈ es, e.2.2 = 0) :
    readGroup s g = (s, some .assertionError) := by
  have he : g.values.mapM (entryOf s.reg) = .ok es := by
    rw [mapM_ok_iff]
    exact hv.imp fun a b h => entryOf_of_says h
  obtain ⟨e, hem, h0⟩ := hz
  obtain ⟨i, hi, rfl⟩ := List.mem_iff_getElem.1 hem
  have hn : ∀ k : Mat es.length ℝ, ¬ posEig (covOf es k) := by
    intro k
    refine not_posEig_of_row _ ⟨i, hi⟩ ?_
    intro j
    unfold covOf
    rw [Fin.getElem_fin, h0]; ring
  rw [readGroup_eq he hc]
  rw [if_neg (hn c), if_neg (hn _)]

/-- **C100 (correlated groups, failure)** If reading a file of groups fails, the groups before the failing one have been read
and nothing else. -/
theorem C100_groups_failure (s s' : PS D) (gs : List Group) (x : PyErr) (h : readCorrelated s gs = (s', some x)) :
    ∃ pre g post, gs = pre ++ g :: post ∧ readCorrelated s pre = (s', none) ∧ readGroup s' g = (s', some x) := by
  induction gs generalizing s with
  | nil => simp [readCorrelated, loop] at h
  | cons g l ih =>
    unfold readCorrelated at h
    simp only [loop] at h
    rcases hg : readGroup s g with ⟨s1, _ | y⟩
    · rw [hg] at h
      simp only at h
      obtain ⟨pre, g', post, i1, i2, i3⟩ := ih s1 h
      refine ⟨g :: pre, g', post, by rw [i1]; rfl, ?_, i3⟩
      unfold readCorrelated at i2 ⊢
      simp only [loop]
      rw [hg]
      exact i2
    · rw [hg] at h
      simp only [Prod.mk.injEq, Option.some.injEq] at h
      obtain ⟨rfl, rfl⟩ := h
      have : s1 = s := by
        unfold readGroup at hg
        split at hg
        · simp only [Prod.mk.injEq] at hg; exact hg.1.symm
        · split at hg
          · simp only [Prod.mk.injEq] at hg; exact hg.1.symm
          · simp at hg
      subst this
      exact ⟨[], g, l, rfl, rfl, hg⟩

/-- **C100 (a second parameter in an entry is dropped)** If an entry of `values` names two parameters, the second one is
silently ignored: the same state is reached as without it. -/
theorem C100_group_second_item (s : PS D) (a b : List (List (String × List Char))) (e f : String × List Char)
    (l : List (String × List Char)) (corr : CorrArg ℝ) :
    readGroup s ⟨a ++ (e :: f :: l) :: b, corr⟩ = readGroup s ⟨a ++ [e] :: b, corr⟩ := by
  unfold readGroup
  simp only [List.mapM_append, List.mapM_cons]
  have : entryOf s.reg (e :: f :: l) = entryOf s.reg [e] := rfl
  rw [this]

/-- Two parameters, fully correlated: not positive, accepted after the second attempt. -/
example (reg : List String) (h : ∀ n ∈ ["a", "b"], n ∈ reg) : ∃ s', readGroup (PS.init reg : PS Nat)
    ⟨[[("a", "1.2(5)".toList)], [("b", "1.2(6)".toList)]], .number 1⟩ = (s', none) := by
  obtain ⟨v, hv⟩ := err_example '5' (Or.inl rfl)
  obtain ⟨w, hw⟩ := err_example '6' (Or.inr rfl)
  have hs : ∀ (n : String) (str : List Char) (x : ℚ), n ∈ reg → Parse.errorsFromString str = .ok ⟨6 / 5, [x], []⟩ →
      Says reg [(n, str)] n (6 / 5) |(x : ℝ)| := by
    intro n str x hn he
    refine ⟨str, [], _, rfl, hn, he, rfl, abs_nonneg _, ?_⟩
    rw [sq_abs]; simp [quadrature]
  have hv0 : v ≠ 0 := by
    rintro rfl; revert hv; decide +kernel
  have hw0 : w ≠ 0 := by
    rintro rfl; revert hw; decide +kernel
  have e1 := hs "a" "1.2(5)".toList v (h _ (by simp)) hv
  have e2 := hs "b" "1.2(6)".toList w (h _ (by simp)) hw
  refine (C100_group_accepted (PS.init reg : PS Nat) ⟨[[("a", "1.2(5)".toList)], [("b", "1.2(6)".toList)]], .number 1⟩
    [("a", 6 / 5, |(v : ℝ)|), ("b", 6 / 5, |(w : ℝ)|)] (fun _ _ => 1) (.cons e1 (.cons e2 .nil)) ?_ (by simp) ?_).2.1 ?_
  · simp [fixCorr]
  · intro e he
    simp only [List.mem_cons, List.not_mem_nil, or_false] at he
    rcases he with rfl | rfl
    · exact abs_pos.2 (by exact_mod_cast hv0)
    · exact abs_pos.2 (by exact_mod_cast hw0)
  · intro u
    unfold quad
    have : ∑ i, ∑ j, u i * 1 * u j = (∑ i, u i) ^ 2 := by
      rw [sq, Finset.sum_mul_sum]; simp
    rw [this]; exact sq_nonneg _

end Verif.Parameters
