import Verif.Probability.GridTheorems
/-!
# C149: the constructor, and removing dimensions
-/
set_option linter.unusedSectionVars false
set_option linter.unusedSimpArgs false
set_option linter.unusedVariables false
namespace Verif.Grid
open Verif.Py Verif.Probability
open Verif.DistDict (evenCheck)

/-! ## Lemmas -/

theorem argmaxFrom_spec (l : List ℝ) (pre : List ℝ) (b : ℕ) (hb : b < pre.length) (hmax : ∀ v ∈ pre, v ≤ pre.getD b 0)
    (hfirst : ∀ j < b, pre.getD j 0 < pre.getD b 0) :
    let r := argmaxFrom (pre.getD b 0) b pre.length l
    r < (pre ++ l).length ∧ (∀ v ∈ pre ++ l, v ≤ (pre ++ l).getD r 0) ∧ ∀ j < r, (pre ++ l).getD j 0 < (pre ++ l).getD r 0 := by
  induction l generalizing pre b with
  | nil => simpa [argmaxFrom] using ⟨hb, hmax, hfirst⟩
  | cons a l ih =>
    have e : pre ++ a :: l = (pre ++ [a]) ++ l := by simp
    have hget : ∀ j < pre.length, (pre ++ [a]).getD j 0 = pre.getD j 0 := fun j hj => by
      rw [List.getD_eq_getElem?_getD, List.getD_eq_getElem?_getD, List.getElem?_append_left hj]
    have hlast : (pre ++ [a]).getD pre.length 0 = a := by simp
    have hmem : ∀ j < pre.length, pre.getD j 0 ∈ pre := fun j hj => by
      rw [List.getD_eq_getElem?_getD, List.getElem?_eq_getElem hj]; exact List.getElem_mem _
    simp only [argmaxFrom]
    rw [e]
    split_ifs with h
    · have := ih (pre ++ [a]) pre.length (by simp) (fun v hv => by
          rw [hlast]
          rw [List.mem_append, List.mem_singleton] at hv
          rcases hv with hv | rfl
          · exact (hmax v hv).trans h.le
          · exact le_refl _) (fun j hj => by rw [hlast, hget j hj]; exact (hmax _ (hmem j hj)).trans_lt h)
      rw [hlast] at this
      simpa using this
    · have := ih (pre ++ [a]) b (by simp; omega) (fun v hv => by
          rw [hget b hb]
          rw [List.mem_append, List.mem_singleton] at hv
          rcases hv with hv | rfl
          · exact hmax v hv
          · exact not_lt.1 h) (fun j hj => by rw [hget b hb, hget j (by omega)]; exact hfirst j hj)
      rw [hget b hb] at this
      simpa using this

theorem argmax_spec {l : List ℝ} (h : l ≠ []) : ∃ r, argmax l = .ok r ∧ r < l.length ∧ (∀ v ∈ l, v ≤ l.getD r 0) ∧
    ∀ j < r, l.getD j 0 < l.getD r 0 := by
  cases l with
  | nil => exact absurd rfl h
  | cons a l =>
    have := argmaxFrom_spec l [a] 0 (by simp) (by simp) (by simp)
    exact ⟨_, rfl, by simpa using this⟩

theorem mem_diff {x : List ℝ} {v : ℝ} : v ∈ diff x ↔ ∃ i, i + 1 < x.length ∧ v = x.getD (i + 1) 0 - x.getD i 0 := by
  induction x with
  | nil => simp [diff]
  | cons a x ih =>
    cases x with
    | nil => simp [diff]
    | cons b x =>
      rw [diff, List.mem_cons, ih]
      constructor
      · rintro (rfl | ⟨i, hi, rfl⟩)
        · exact ⟨0, by simp, by simp⟩
        · exact ⟨i + 1, by simpa using hi, by simp⟩
      · rintro ⟨i, hi, rfl⟩
        cases i with
        | zero => left; simp
        | succ i => right; exact ⟨i, by simpa using hi, by simp⟩

theorem foldl_max_const {d : ℝ} {r : List ℝ} (h : ∀ v ∈ r, v = d) : r.foldl max d = d ∧ r.foldl min d = d := by
  induction r with
  | nil => exact ⟨rfl, rfl⟩
  | cons a r ih =>
    rw [List.foldl_cons, List.foldl_cons, h a (by simp), max_self, min_self]
    exact ih fun v hv => h v (by simp [hv])

theorem foldl_max_ge (d : ℝ) (r : List ℝ) : (∀ v ∈ d :: r, v ≤ r.foldl max d) ∧ r.foldl max d ∈ d :: r := by
  induction r generalizing d with
  | nil => simp
  | cons a r ih =>
    rw [List.foldl_cons]
    obtain ⟨h1, h2⟩ := ih (max d a)
    refine ⟨fun v hv => ?_, ?_⟩
    · simp only [List.mem_cons] at hv
      have h0 := h1 (max d a) (by simp)
      rcases hv with rfl | rfl | hv
      · exact (le_max_left _ _).trans h0
      · exact (le_max_right _ _).trans h0
      · exact h1 v (by simp [hv])
    · rw [List.mem_cons] at h2
      rcases h2 with h2 | h2
      · rw [h2]; rcases max_choice d a with h | h <;> simp [h]
      · simp [h2]

theorem foldl_min_le (d : ℝ) (r : List ℝ) : (∀ v ∈ d :: r, r.foldl min d ≤ v) := by
  induction r generalizing d with
  | nil => simp
  | cons a r ih =>
    rw [List.foldl_cons]
    intro v hv
    have h0 := ih (min d a)
    simp only [List.mem_cons] at hv
    rcases hv with rfl | rfl | hv
    · exact (h0 (min v a) (by simp)).trans (min_le_left _ _)
    · exact (h0 (min d v) (by simp)).trans (min_le_right _ _)
    · exact h0 v (by simp [hv])

theorem evenCheck_const {x : List ℝ} {δ : ℝ} (h2 : 2 ≤ x.length) (hd : 0 < δ) (h : ∀ v ∈ diff x, v = δ) : evenCheck x = .ok () := by
  unfold evenCheck
  cases hx : diff x with
  | nil =>
    match x, h2 with
    | a :: b :: r, _ => simp [diff] at hx
  | cons d r =>
    rw [hx] at h
    have hdd : d = δ := h d (by simp)
    subst hdd
    obtain ⟨e1, e2⟩ := foldl_max_const (d := d) (r := r) fun v hv => h v (by simp [hv])
    simp only [e1, e2]
    rw [if_neg]
    rintro (⟨h1, _⟩ | ⟨_, h1⟩)
    · exact hd.ne' h1
    · rw [div_self hd.ne'] at h1; norm_num at h1

theorem EvenAxis.spec {x : List ℝ} (h : EvenAxis x) : 2 ≤ x.length ∧ x.Pairwise (· < ·) ∧ evenCheck x = .ok () := by
  obtain ⟨a, δ, m, hd, hm, rfl⟩ := h
  have hget : ∀ i < m, ((List.range m).map fun i : ℕ => a + i * δ).getD i 0 = a + i * δ := fun i hi => by
    simp [List.getD_eq_getElem?_getD, List.getElem?_map, List.getElem?_range hi]
  refine ⟨by simpa using hm, ?_, ?_⟩
  · rw [List.pairwise_map]
    refine (List.pairwise_lt_range (n := m)).imp fun {i j} hij => ?_
    have : (i : ℝ) < j := by exact_mod_cast hij
    nlinarith
  · refine evenCheck_const (δ := δ) (by simpa using hm) hd fun v hv => ?_
    rw [mem_diff] at hv
    obtain ⟨i, hi, rfl⟩ := hv
    rw [List.length_map, List.length_range] at hi
    rw [hget _ hi, hget _ (by omega)]
    push_cast; ring

theorem linspace_even {a b : ℝ} (h : a < b) {m : ℕ} (hm : 2 ≤ m) : EvenAxis (linspace a b m) := by
  have : (2 : ℝ) ≤ m := by exact_mod_cast hm
  exact ⟨a, (b - a) / ((m : ℝ) - 1), m, div_pos (by linarith) (by linarith), hm, rfl⟩

theorem expandAxis_ok {shape : List ℕ} {i : ℕ} {x x' : List ℝ} (h : expandAxis shape i x = .ok x') :
    x' = x ∧ x.length ≠ 2 ∨ ∃ a b m, x = [a, b] ∧ shape[i]? = some m ∧ x' = linspace a b m := by
  unfold expandAxis at h
  split at h
  · rename_i a b
    split at h
    · rename_i m hm
      injection h with h
      exact Or.inr ⟨a, b, m, rfl, hm, h.symm⟩
    · cases h
  · rename_i hne
    injection h with h
    refine Or.inl ⟨h.symm, fun hl => ?_⟩
    match x, hl with
    | [a, b], _ => exact hne a b rfl

theorem linspace_two (a b : ℝ) : linspace a b 2 = [a, b] := by
  unfold linspace
  simp [List.range_succ]
  norm_num

theorem indices_ne_nil {xi : List (List ℝ)} (hh : ∀ x ∈ xi, 2 ≤ x.length ∧ x.Pairwise (· < ·)) : indices (xi.map List.length) ≠ [] := by
  have : List.replicate xi.length 0 ∈ indices (xi.map List.length) := by
    rw [mem_indices]
    unfold IsIndex
    rw [List.forall₂_map_left_iff]
    induction xi with
    | nil => exact .nil
    | cons a as ih =>
      rw [List.length_cons, List.replicate_succ]
      exact .cons (by have := (hh a (by simp)).1; omega) (ih fun x hx => hh x (by simp [hx]))
  intro he; rw [he] at this; simp at this

/-- A grid whose axes pass the checks is used as it is. -/
theorem mkMNum_of {xs : List (List ℝ)} (hg : IsGrid xs) (he : ∀ x ∈ xs, evenCheck x = .ok ()) (y : List ℕ → ℝ) (c : Option (List ℝ)) :
    mkMNum xs ⟨xs.map List.length, y⟩ c = finishM xs y c := by
  unfold mkMNum
  have h1 : xs.mapM evenCheck = .ok (xs.map fun _ => ()) := by
    rw [mapM_ok_iff, List.forall₂_map_right_iff]
    exact List.forall₂_same.2 fun x hx => he x hx
  have h2 : xs.zipIdx.mapM (fun e => expandAxis (xs.map List.length) e.2 e.1) = .ok xs := by
    rw [mapM_ok_iff]
    rw [List.forall₂_iff_get]
    refine ⟨by simp, fun i hi hj => ?_⟩
    simp only [List.get_eq_getElem, List.getElem_zipIdx, zero_add]
    unfold expandAxis
    split
    · rename_i a b heq
      rw [List.getElem?_map, List.getElem?_eq_getElem hj]
      simp only [Option.map_some, heq]
      simp only [List.length_cons, List.length_nil, zero_add, Nat.reduceAdd]
      rw [linspace_two]
    · rfl
  rw [h1, ok_bind_eq, h2, ok_bind_eq, if_neg]
  push Not
  exact ⟨rfl, hg.1, hg.2⟩

/-- The parts of a successful construction. -/
theorem mkMNum_ok {xi : List (List ℝ)} {y : Table} {c : Option (List ℝ)} {d : MNum} (h : mkMNum xi y c = .ok d) :
    IsGrid d.xi ∧ d.shape = y.shape ∧ d.y = y.val ∧ (∀ x ∈ d.xi, evenCheck x = .ok ()) ∧
    List.Forall₂ (fun x x' => x' = x ∨ ∃ a b m, x = [a, b] ∧ x' = linspace a b m) xi d.xi ∧ finishM d.xi y.val c = .ok d := by
  unfold mkMNum at h
  obtain ⟨u, hu, h⟩ := bind_eq_ok h
  obtain ⟨xs, hxs, h⟩ := bind_eq_ok h
  split_ifs at h with hc
  push Not at hc
  obtain ⟨h1, h2, h3⟩ := hc
  have hd : d.xi = xs ∧ d.y = y.val := by
    cases c with
    | none =>
      unfold finishM at h
      obtain ⟨v, _, h⟩ := bind_eq_ok h
      injection h with h
      rw [← h]; exact ⟨rfl, rfl⟩
    | some v =>
      unfold finishM at h
      injection h with h
      rw [← h]; exact ⟨rfl, rfl⟩
  have h4 := (mapM_ok_iff _ _ _).1 hxs
  have h5 : List.Forall₂ (fun x x' => (x' = x ∧ x.length ≠ 2) ∨ ∃ a b m, x = [a, b] ∧ x' = linspace a b m) xi xs := by
    rw [List.forall₂_iff_get] at h4 ⊢
    refine ⟨by simpa using h4.1, fun i hi hj => ?_⟩
    have := h4.2 i (by simpa using hi) hj
    simp only [List.get_eq_getElem, List.getElem_zipIdx] at this
    rcases expandAxis_ok this with h | ⟨a, b, m, e1, _, e2⟩
    · exact Or.inl h
    · exact Or.inr ⟨a, b, m, e1, e2⟩
  have h6 := (mapM_ok_iff _ _ _).1 hu
  refine ⟨by rw [hd.1]; exact ⟨h2, h3⟩, by rw [MNum.shape, hd.1, h1], hd.2, ?_, ?_, by rw [hd.1]; exact h⟩
  · rw [hd.1]
    intro x' hx'
    obtain ⟨i, hi, rfl⟩ := List.getElem_of_mem hx'
    rw [List.forall₂_iff_get] at h5 h6
    have hi' : i < xi.length := by rw [h5.1]; exact hi
    have a1 := h5.2 i hi' hi
    have a2 := h6.2 i hi' (by rw [← h6.1]; exact hi')
    simp only [List.get_eq_getElem] at a1 a2
    rcases a1 with ⟨e, _⟩ | ⟨a, b, m, e1, e2⟩
    · rw [e, a2]
    · obtain ⟨g1, g2⟩ := h3 _ (List.getElem_mem hi)
      rw [e2] at g1 g2 ⊢
      rw [linspace_length] at g1
      have hab : a < b := by
        have hlt := getD_lt g2 (show 0 < m - 1 by omega) (by rw [linspace_length]; omega)
        have hm : (2 : ℝ) ≤ m := by exact_mod_cast g1
        unfold linspace at hlt
        rw [List.getD_eq_getElem?_getD, List.getD_eq_getElem?_getD, List.getElem?_map, List.getElem?_map,
          List.getElem?_range (by omega), List.getElem?_range (by omega)] at hlt
        simp only [Option.map_some, Option.getD_some, Nat.cast_zero, zero_mul, add_zero] at hlt
        rw [Nat.cast_sub (by omega)] at hlt
        push_cast at hlt
        have hne : (m : ℝ) - 1 ≠ 0 := by linarith
        rw [mul_div_cancel₀ _ hne] at hlt
        linarith
      exact (linspace_even hab g1).spec.2.2
  · rw [hd.1]
    exact h5.imp fun x x' hxx => by
      rcases hxx with ⟨e, _⟩ | h
      · exact Or.inl e
      · exact Or.inr h

/-! ## Theorems -/

/-- **C149 (constructor)** A distribution that has been created has a grid whose axes are those given, or equally spaced points if
two boundaries were given; the shape is that of the table.  With a central value it is kept and the support is the range of the
grid; without, the central value is the grid point with the largest value (the first one in C order if there are
several), and the object has no support. -/
theorem C149_construct (xi : List (List ℝ)) (y : Table) (c : Option (List ℝ)) (d : MNum) (h : mkMNum xi y c = .ok d) :
    IsGrid d.xi ∧ d.xi.map List.length = y.shape ∧ d.y = y.val ∧
    List.Forall₂ (fun x x' => x' = x ∨ ∃ a b m, x = [a, b] ∧ x' = linspace a b m) xi d.xi ∧
    (∀ v, c = some v → d.central = v ∧ d.support = some (d.xi.map fun x => x.headD 0, d.xi.map fun x => x.getLastD 0)) ∧
    (c = none → d.support = none ∧ ∃ k, IsIndex d.shape k ∧ d.central = gridPoint d.xi k ∧
      ∀ k', IsIndex d.shape k' → d.y k' ≤ d.y k ∧ (List.Lex (· < ·) k' k → d.y k' < d.y k)) := by
  obtain ⟨h1, h2, h3, -, h5, h6⟩ := mkMNum_ok h
  refine ⟨h1, h2, h3, h5, fun v hv => ?_, fun hv => ?_⟩
  · subst hv
    unfold finishM at h6
    injection h6 with h6
    rw [← h6]; exact ⟨rfl, rfl⟩
  · subst hv
    unfold finishM mode at h6
    obtain ⟨v, hv, h6⟩ := bind_eq_ok h6
    obtain ⟨i, hi, hv⟩ := bind_eq_ok hv
    injection hv with hv
    have hidx := indices_ne_nil h1.2
    obtain ⟨r, r1, r2, r3, r4⟩ := argmax_spec (l := (indices (d.xi.map List.length)).map y.val) (by simpa using hidx)
    rw [hi] at r1
    injection r1 with r1
    subst r1
    have hi' : i < (indices (d.xi.map List.length)).length := by simpa using r2
    have hgetl : ∀ j, (hj : j < (indices (d.xi.map List.length)).length) →
        ((indices (d.xi.map List.length)).map y.val).getD j 0 = y.val ((indices (d.xi.map List.length))[j]) := fun j hj => by
      simp [List.getD_eq_getElem?_getD, List.getElem?_map, List.getElem?_eq_getElem hj]
    have hk : (indices (d.xi.map List.length)).getD i [] = (indices (d.xi.map List.length))[i] := by
      simp [List.getD_eq_getElem?_getD, List.getElem?_eq_getElem hi']
    rw [hk] at hv
    injection h6 with h6
    refine ⟨by rw [← h6], (indices (d.xi.map List.length))[i], mem_indices.1 (List.getElem_mem hi'), ?_, fun k' hk' => ⟨?_, fun hlex => ?_⟩⟩
    · conv_lhs => rw [← h6]
      exact hv.symm
    · rw [h3, ← hgetl i hi']
      exact r3 _ (List.mem_map.2 ⟨k', mem_indices.2 hk', rfl⟩)
    · obtain ⟨j, hj, rfl⟩ := List.getElem_of_mem (mem_indices.2 hk')
      have hj' : j < (indices (d.xi.map List.length)).length := hj
      have hji : j < i := by
        by_contra hnot
        rcases (not_lt.1 hnot).eq_or_lt with rfl | hlt
        · exact List.lex_irrefl (fun x => lt_irrefl x) _ hlex
        · have := List.pairwise_iff_getElem.1 (lex_indices d.shape) i j hi' hj hlt
          exact List.lex_asymm (fun h1 h2 => lt_asymm h1 h2) hlex this
      rw [h3]
      have := r4 j hji
      rw [hgetl i hi', hgetl j hj'] at this
      exact this

/-- **C149 (acceptance)** Axes with equal steps and a table of matching shape are accepted. -/
theorem C149_accepted (xi : List (List ℝ)) (y : List ℕ → ℝ) (c : Option (List ℝ)) (hne : xi ≠ []) (h : ∀ x ∈ xi, EvenAxis x) :
    ∃ d, mkMNum xi ⟨xi.map List.length, y⟩ c = .ok d := by
  have hg : IsGrid xi := ⟨hne, fun x hx => ⟨(h x hx).spec.1, (h x hx).spec.2.1⟩⟩
  rw [mkMNum_of hg fun x hx => (h x hx).spec.2.2]
  cases c with
  | some v => exact ⟨_, rfl⟩
  | none =>
    unfold finishM mode
    have hidx := indices_ne_nil hg.2
    obtain ⟨r, r1, _⟩ := argmax_spec (l := (indices (xi.map List.length)).map y) (by simpa using hidx)
    rw [r1]
    exact ⟨_, rfl⟩

/-- **C149 (refusal)** An axis on which one step is more than a per mille smaller than another one is refused. -/
theorem C149_uneven_refused (xi : List (List ℝ)) (y : Table) (c : Option (List ℝ)) (x : List ℝ) (hx : x ∈ xi) (i j : ℕ)
    (hi : i + 1 < x.length) (hj : j + 1 < x.length) (hpos : 0 < x.getD (j + 1) 0 - x.getD j 0)
    (h : x.getD (i + 1) 0 - x.getD i 0 < (1 - 1 / 1000) * (x.getD (j + 1) 0 - x.getD j 0)) : mkMNum xi y c = .error .valueError := by
  have herr : ∀ z e, evenCheck z = .error e → e = .valueError := by
    intro z e hz
    unfold evenCheck at hz
    split at hz
    · injection hz with hz; exact hz.symm
    · split_ifs at hz
      injection hz with hz; exact hz.symm
  have hbad : evenCheck x = .error .valueError := by
    unfold evenCheck
    have hmi : x.getD (i + 1) 0 - x.getD i 0 ∈ diff x := mem_diff.2 ⟨i, hi, rfl⟩
    have hmj : x.getD (j + 1) 0 - x.getD j 0 ∈ diff x := mem_diff.2 ⟨j, hj, rfl⟩
    generalize x.getD (i + 1) 0 - x.getD i 0 = u at h hmi
    generalize x.getD (j + 1) 0 - x.getD j 0 = v at h hmj hpos
    cases hd : diff x with
    | nil => simp [hd] at hmi
    | cons d r =>
      rw [hd] at hmi hmj
      have a1 := (foldl_max_ge d r).1 v hmj
      have a2 := foldl_min_le d r u hmi
      simp only
      rw [if_pos]
      right
      have hM : 0 < r.foldl max d := lt_of_lt_of_le hpos a1
      refine ⟨hM.ne', ?_⟩
      rw [gt_iff_lt, lt_abs]
      right
      rw [neg_sub, lt_sub_comm, div_lt_iff₀ hM]
      nlinarith
  unfold mkMNum
  have : xi.mapM evenCheck = .error .valueError := by
    induction xi with
    | nil => simp at hx
    | cons z xi ih =>
      rw [List.mapM_cons]
      cases hz : evenCheck z with
      | error e => rw [herr z e hz]; rfl
      | ok _ =>
        rw [List.mem_cons] at hx
        rcases hx with rfl | hx
        · rw [hbad] at hz; cases hz
        · rw [ok_bind_eq, ih hx]; rfl
  rw [this]
  rfl

end Verif.Grid
