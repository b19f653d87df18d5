import Verif.Probability.GridTheorems2
/-!
# C150: random numbers from a multivariate numerical distribution
-/
set_option linter.unusedSectionVars false
set_option linter.unusedSimpArgs false
set_option linter.unusedVariables false
namespace Verif.Grid
open Verif.Py Verif.Probability

/-! ## Specification -/

/-- The cumulative sum up to and including the `i`th grid point (in C order), divided by the total. (Specification.) -/
noncomputable def cumulative (d : MNum) (i : ℕ) : ℝ := (((indices d.shape).take (i + 1)).map d.y).sum / d.total

/-- The `i`th grid point (in C order) is the one selected by `r`: its cumulative value is the closest to `r`, the first such one if
there are several. (Specification.) -/
def Selected (d : MNum) (r : ℝ) (i : ℕ) : Prop :=
  i < (indices d.shape).length ∧ (∀ j < (indices d.shape).length, |cumulative d i - r| ≤ |cumulative d j - r|) ∧
    ∀ j < i, |cumulative d i - r| < |cumulative d j - r|

/-! ## Lemmas -/

theorem argminFrom_spec (l : List ℝ) (pre : List ℝ) (b : ℕ) (hb : b < pre.length) (hmin : ∀ v ∈ pre, pre.getD b 0 ≤ v)
    (hfirst : ∀ j < b, pre.getD b 0 < pre.getD j 0) :
    let r := argminFrom (pre.getD b 0) b pre.length l
    r < (pre ++ l).length ∧ (∀ v ∈ pre ++ l, (pre ++ l).getD r 0 ≤ v) ∧ ∀ j < r, (pre ++ l).getD r 0 < (pre ++ l).getD j 0 := by
  induction l generalizing pre b with
  | nil => simpa [argminFrom] using ⟨hb, hmin, hfirst⟩
  | cons a l ih =>
    have e : pre ++ a :: l = (pre ++ [a]) ++ l := by simp
    have hget : ∀ j < pre.length, (pre ++ [a]).getD j 0 = pre.getD j 0 := fun j hj => by
      rw [List.getD_eq_getElem?_getD, List.getD_eq_getElem?_getD, List.getElem?_append_left hj]
    have hlast : (pre ++ [a]).getD pre.length 0 = a := by simp
    have hmem : ∀ j < pre.length, pre.getD j 0 ∈ pre := fun j hj => by
      rw [List.getD_eq_getElem?_getD, List.getElem?_eq_getElem hj]; exact List.getElem_mem _
    simp only [argminFrom]
    rw [e]
    split_ifs with h
    · have := ih (pre ++ [a]) pre.length (by simp) (fun v hv => by
          rw [hlast]
          rw [List.mem_append, List.mem_singleton] at hv
          rcases hv with hv | rfl
          · exact h.le.trans (hmin v hv)
          · exact le_refl _) (fun j hj => by rw [hlast, hget j hj]; exact h.trans_le (hmin _ (hmem j hj)))
      rw [hlast] at this
      simpa using this
    · have := ih (pre ++ [a]) b (by simp; omega) (fun v hv => by
          rw [hget b hb]
          rw [List.mem_append, List.mem_singleton] at hv
          rcases hv with hv | rfl
          · exact hmin v hv
          · exact not_lt.1 h) (fun j hj => by rw [hget b hb, hget j (by omega)]; exact hfirst j hj)
      rw [hget b hb] at this
      simpa using this

theorem argmin_spec {l : List ℝ} (h : l ≠ []) : argmin l < l.length ∧ (∀ v ∈ l, l.getD (argmin l) 0 ≤ v) ∧
    ∀ j < argmin l, l.getD (argmin l) 0 < l.getD j 0 := by
  cases l with
  | nil => exact absurd rfl h
  | cons a l =>
    have := argminFrom_spec l [a] 0 (by simp) (by simp) (by simp)
    rw [show argmin (a :: l) = argminFrom a 0 1 l from rfl]
    simpa using this

theorem cumsumFrom_length (s : ℝ) (l : List ℝ) : (cumsumFrom s l).length = l.length := by
  induction l generalizing s with
  | nil => rfl
  | cons a l ih => rw [cumsumFrom, List.length_cons, ih, List.length_cons]

theorem cumsumFrom_getElem? (s : ℝ) (l : List ℝ) (i : ℕ) (hi : i < l.length) : (cumsumFrom s l)[i]? = some (s + (l.take (i + 1)).sum) := by
  induction l generalizing s i with
  | nil => simp at hi
  | cons a l ih =>
    rw [cumsumFrom]
    cases i with
    | zero => simp
    | succ i =>
      rw [List.getElem?_cons_succ, ih _ i (by simpa using hi)]
      simp [add_assoc]

theorem cumsumFrom_last (s : ℝ) (l : List ℝ) (h : l ≠ []) : (cumsumFrom s l).getLastD 0 = s + l.sum := by
  rw [List.getLastD_eq_getLast?, List.getLast?_eq_getElem?, cumsumFrom_length]
  have hl : 0 < l.length := List.length_pos_of_ne_nil h
  rw [cumsumFrom_getElem? _ _ _ (by omega), show l.length - 1 + 1 = l.length by omega, List.take_length]
  rfl

theorem indices_ne {d : MNum} (hd : IsDensity d) : indices d.shape ≠ [] := by
  obtain ⟨_, k, hk, _⟩ := hd
  have := mem_indices.2 hk
  intro he; rw [he] at this; simp at this

theorem cdfFlat_getElem? {d : MNum} (hd : IsDensity d) {i : ℕ} (hi : i < (indices d.shape).length) : d.cdfFlat[i]? = some (cumulative d i) := by
  unfold MNum.cdfFlat cumulative
  simp only
  rw [List.getElem?_map, cumsumFrom_getElem? _ _ _ (by simpa using hi), cumsumFrom_last _ _ (by simpa using indices_ne hd), zero_add, zero_add,
    ← List.map_take]
  rfl

theorem cdfFlat_length {d : MNum} : d.cdfFlat.length = (indices d.shape).length := by
  unfold MNum.cdfFlat
  simp only
  rw [List.length_map, cumsumFrom_length, List.length_map]

theorem selected_argmin {d : MNum} (hd : IsDensity d) (r : ℝ) : Selected d r (argmin (d.cdfFlat.map fun c => |c - r|)) := by
  have hne : d.cdfFlat.map (fun c => |c - r|) ≠ [] := by
    intro he
    have := congrArg List.length he
    rw [List.length_map, cdfFlat_length] at this
    exact indices_ne hd (List.length_eq_zero_iff.1 this)
  obtain ⟨h1, h2, h3⟩ := argmin_spec hne
  generalize argmin (d.cdfFlat.map fun c => |c - r|) = i at h1 h2 h3
  have hlen : (d.cdfFlat.map fun c => |c - r|).length = (indices d.shape).length := by rw [List.length_map, cdfFlat_length]
  have hget : ∀ j < (indices d.shape).length, (d.cdfFlat.map fun c => |c - r|).getD j 0 = |cumulative d j - r| := fun j hj => by
    rw [List.getD_eq_getElem?_getD, List.getElem?_map, cdfFlat_getElem? hd hj]
    rfl
  have hi : i < (indices d.shape).length := hlen ▸ h1
  refine ⟨hi, fun j hj => ?_, fun j hj => ?_⟩
  · rw [← hget i hi]
    apply h2
    rw [← hget j hj, List.getD_eq_getElem?_getD, List.getElem?_eq_getElem (by rw [hlen]; exact hj)]
    exact List.getElem_mem _
  · rw [← hget i hi, ← hget j (by omega)]
    exact h3 j hj

theorem selected_unique {d : MNum} {r : ℝ} {i j : ℕ} (hi : Selected d r i) (hj : Selected d r j) : i = j := by
  rcases lt_trichotomy i j with h | h | h
  · have := hj.2.2 i h
    have := hi.2.1 j hj.1
    linarith
  · exact h
  · have := hi.2.2 j h
    have := hj.2.1 i hi.1
    linarith

theorem chosen_of_selected {d : MNum} (hd : IsDensity d) {r : ℝ} {i : ℕ} (hi : Selected d r i) :
    d.chosenValue r = d.y ((indices d.shape)[i]'hi.1) := by
  unfold MNum.chosenValue
  rw [selected_unique (selected_argmin hd r) hi, List.getD_eq_getElem?_getD, List.getElem?_map, List.getElem?_eq_getElem hi.1]
  rfl

theorem cumulative_step {d : MNum} {i : ℕ} (hi : i + 1 < (indices d.shape).length) :
    cumulative d (i + 1) = cumulative d i + d.y ((indices d.shape)[i + 1]) / d.total := by
  unfold cumulative
  rw [List.take_succ_eq_append_getElem hi, List.map_append, List.sum_append]
  simp only [List.map_cons, List.map_nil, List.sum_cons, List.sum_nil, add_zero]
  ring

theorem cumulative_mono {d : MNum} (hd : IsDensity d) {i j : ℕ} (hij : i ≤ j) (hj : j < (indices d.shape).length) :
    cumulative d i ≤ cumulative d j := by
  induction j with
  | zero => rw [Nat.le_zero.1 hij]
  | succ j ih =>
    rcases hij.eq_or_lt with rfl | h
    · exact le_refl _
    · have := ih (by omega) (by omega)
      rw [cumulative_step hj]
      have h0 : 0 ≤ d.y ((indices d.shape)[j + 1]) / d.total :=
        div_nonneg (hd.1 _ (mem_indices.1 (List.getElem_mem _))) (total_pos hd).le
      linarith

/-! ## Theorems -/

/-- **C150 (random point)** The random point lies, in every coordinate, within half a step of a grid point; the value of the PDF at
this grid point is that at the grid point whose cumulative value is closest to the random number; there always is a candidate. -/
theorem C150_random (d : MNum) (hg : IsGrid d.xi) (hd : IsDensity d) (r : ℝ) :
    d.candidates r ≠ [] ∧ ∀ (b : ℕ) (u : List ℝ), b < (d.candidates r).length → u.length = d.xi.length → (∀ v ∈ u, |v| ≤ 1 / 2) →
      ∃ (k : List ℕ) (i : ℕ) (hi : Selected d r i), IsIndex d.shape k ∧ d.y k = d.y ((indices d.shape)[i]'hi.1) ∧
        (d.random r b u).length = d.xi.length ∧
        ∀ (j : ℕ) (x : List ℝ) (p q : ℝ), d.xi[j]? = some x → (gridPoint d.xi k)[j]? = some p → (d.random r b u)[j]? = some q →
          |q - p| ≤ (x.getD 1 0 - x.getD 0 0) / 2 := by
  have hsel := selected_argmin hd r
  generalize argmin (d.cdfFlat.map fun c => |c - r|) = i at hsel
  have hmem : ∀ k, k ∈ d.candidates r ↔ IsIndex d.shape k ∧ d.y k = d.y ((indices d.shape)[i]'hsel.1) := by
    intro k
    unfold MNum.candidates
    rw [List.mem_filter, mem_indices, decide_eq_true_eq, chosen_of_selected hd hsel]
  refine ⟨?_, fun b u hb hu hu2 => ?_⟩
  · have := (hmem _).2 ⟨mem_indices.1 (List.getElem_mem hsel.1), rfl⟩
    intro he; rw [he] at this; simp at this
  · have hk := (hmem _).1 (List.getElem_mem hb)
    have hb' : (d.candidates r).getD b [] = (d.candidates r)[b] := by
      rw [List.getD_eq_getElem?_getD, List.getElem?_eq_getElem hb]; rfl
    have hlen := (inside_grid hg.2 hk.1).2
    refine ⟨_, i, hsel, hk.1, hk.2, ?_, ?_⟩
    · unfold MNum.random
      rw [hb']
      simp [hlen, hu]
    · intro j x p q hx hp hq
      unfold MNum.random at hq
      rw [hb', List.getElem?_zipWith, hp, List.getElem?_zipWith, List.getElem?_map, hx] at hq
      obtain ⟨hj, -⟩ := List.getElem?_eq_some_iff.1 hx
      rw [List.getElem?_eq_getElem (hu ▸ hj : j < u.length)] at hq
      simp only [Option.map_some, Option.some.injEq] at hq
      rw [← hq]
      have hgp := gap_pos (hg.2 x (List.mem_of_getElem? hx))
      have h1 := hu2 _ (List.getElem_mem (hu ▸ hj : j < u.length))
      have e : p + u[j] * gap x - p = u[j] * gap x := by ring
      rw [e, abs_mul, abs_of_pos hgp]
      unfold gap at hgp ⊢
      nlinarith

/-- **C150 (points of non-zero density)** If the PDF does not vanish at the first grid point, the grid point that is drawn has non-zero
density. -/
theorem C150_random_positive_partial (d : MNum) (hd : IsDensity d) (r : ℝ)
    (h0 : ∀ h : 0 < (indices d.shape).length, (0 : ℝ) < d.y ((indices d.shape)[0]'h)) : ∀ k ∈ d.candidates r, 0 < d.y k := by
  intro k hk
  have hsel := selected_argmin hd r
  generalize argmin (d.cdfFlat.map fun c => |c - r|) = i at hsel
  unfold MNum.candidates at hk
  rw [List.mem_filter, decide_eq_true_eq, chosen_of_selected hd hsel] at hk
  rw [hk.2]
  obtain ⟨s1, s2, s3⟩ := hsel
  cases i with
  | zero => exact h0 s1
  | succ i =>
    have hnn := hd.1 _ (mem_indices.1 (List.getElem_mem s1))
    rcases hnn.eq_or_lt with he | hlt
    · have e := cumulative_step s1
      rw [← he, zero_div, add_zero] at e
      have := s3 i (by omega)
      rw [e] at this
      exact absurd this (lt_irrefl _)
    · exact hlt

/-- **C150 (points of zero density are drawn)** If the PDF vanishes at the first grid point (in C order), a random number `r` below
half of the weight of the first grid point with non-zero density selects a grid point of zero density - any of them. -/
theorem C150_zero_density_drawn (d : MNum) (hd : IsDensity d) (i : ℕ) (hi : i < (indices d.shape).length) (hpos : 0 < i)
    (hz : ∀ (j : ℕ) (hj : j < i), d.y ((indices d.shape)[j]) = 0) (r : ℝ) (hr0 : 0 ≤ r) (hr : r < d.y ((indices d.shape)[i]) / d.total / 2) :
    ∀ k, k ∈ d.candidates r ↔ IsIndex d.shape k ∧ d.y k = 0 := by
  have hc0 : ∀ j < i, cumulative d j = 0 := by
    intro j hj
    unfold cumulative
    have : (((indices d.shape).take (j + 1)).map d.y).sum = 0 := by
      apply List.sum_eq_zero
      intro v hv
      rw [List.mem_map] at hv
      obtain ⟨k, hk, rfl⟩ := hv
      obtain ⟨m, hm, rfl⟩ := List.getElem_of_mem hk
      rw [List.length_take] at hm
      rw [List.getElem_take]
      exact hz m (by omega)
    rw [this, zero_div]
  have hci : cumulative d i = d.y ((indices d.shape)[i]) / d.total := by
    obtain ⟨m, rfl⟩ : ∃ m, i = m + 1 := ⟨i - 1, by omega⟩
    rw [cumulative_step hi, hc0 m (by omega), zero_add]
  have hsel : Selected d r 0 := by
    refine ⟨by omega, fun j hj => ?_, fun j hj => absurd hj (by omega)⟩
    rw [hc0 0 hpos, zero_sub, abs_neg, abs_of_nonneg hr0]
    rcases lt_or_ge j i with h | h
    · rw [hc0 j h, zero_sub, abs_neg, abs_of_nonneg hr0]
    · have := cumulative_mono hd h hj
      rw [hci] at this
      rw [le_abs]
      left
      linarith
  intro k
  unfold MNum.candidates
  rw [List.mem_filter, mem_indices, decide_eq_true_eq, chosen_of_selected hd hsel, hz 0 hpos]

/-- **C150 (probability of a grid point)** If the PDF does not vanish on the grid, the `i`th grid point (in C order) is selected by the
random numbers between the midpoints of its cumulative value and the neighbouring ones: an interval whose length is the
mean of its own weight and that of the next grid point, instead of its own weight. -/
theorem C150_selection (d : MNum) (hd : IsDensity d) (hpos : ∀ k, IsIndex d.shape k → 0 < d.y k) (r : ℝ) (i : ℕ)
    (hi : i + 1 < (indices d.shape).length) (hi0 : 0 < i) :
    (Selected d r i ↔ (cumulative d (i - 1) + cumulative d i) / 2 < r ∧ r ≤ (cumulative d i + cumulative d (i + 1)) / 2) ∧
    (cumulative d i + cumulative d (i + 1)) / 2 - (cumulative d (i - 1) + cumulative d i) / 2 =
      (d.y ((indices d.shape)[i]) / d.total + d.y ((indices d.shape)[i + 1]) / d.total) / 2 := by
  obtain ⟨m, rfl⟩ : ∃ m, i = m + 1 := ⟨i - 1, by omega⟩
  have ht := total_pos hd
  have s1 := cumulative_step (d := d) (i := m) (by omega)
  have s2 := cumulative_step hi
  have p1 : 0 < d.y ((indices d.shape)[m + 1]) / d.total := div_pos (hpos _ (mem_indices.1 (List.getElem_mem _))) ht
  have p2 : 0 < d.y ((indices d.shape)[m + 1 + 1]) / d.total := div_pos (hpos _ (mem_indices.1 (List.getElem_mem _))) ht
  simp only [Nat.add_sub_cancel]
  refine ⟨⟨fun ⟨a1, a2, a3⟩ => ⟨?_, ?_⟩, fun ⟨b1, b2⟩ => ⟨by omega, fun j hj => ?_, fun j hj => ?_⟩⟩, by rw [s2, s1]; ring⟩
  · by_contra hnot
    have h1 := a3 m (by omega)
    rw [lt_abs] at h1
    have h2 := abs_lt.1 (lt_of_lt_of_le (a3 m (by omega)) le_rfl)
    rcases abs_cases (cumulative d (m + 1) - r) with h | h <;> rcases abs_cases (cumulative d m - r) with h' | h' <;>
      · have := a3 m (by omega); linarith
  · by_contra hnot
    have := a2 (m + 1 + 1) hi
    rcases abs_cases (cumulative d (m + 1) - r) with h | h <;> rcases abs_cases (cumulative d (m + 1 + 1) - r) with h' | h' <;> linarith
  · rcases lt_trichotomy j (m + 1) with h | rfl | h
    · have := cumulative_mono hd (show j ≤ m by omega) (by omega)
      rcases abs_cases (cumulative d (m + 1) - r) with h | h <;> rcases abs_cases (cumulative d j - r) with h' | h' <;> linarith
    · exact le_refl _
    · have := cumulative_mono hd (show m + 1 + 1 ≤ j by omega) hj
      rcases abs_cases (cumulative d (m + 1) - r) with h | h <;> rcases abs_cases (cumulative d j - r) with h' | h' <;> linarith
  · have := cumulative_mono hd (show j ≤ m by omega) (by omega)
    rcases abs_cases (cumulative d (m + 1) - r) with h | h <;> rcases abs_cases (cumulative d j - r) with h' | h' <;> linarith

/-! ## A concrete case -/

/-- Two axes of two points; the PDF vanishes at the first grid point only. (Specification.) -/
noncomputable def cornerZero : MNum := ⟨[[0, 1], [0, 1]], fun k => if k = [0, 0] then 0 else 1, [1, 1], none⟩

theorem cornerZero_indices : indices cornerZero.shape = [[0, 0], [0, 1], [1, 0], [1, 1]] := by
  simp [MNum.shape, cornerZero, indices, List.range_succ]

theorem cornerZero_density : IsDensity cornerZero := by
  refine ⟨fun k _ => ?_, [0, 1], .cons (by norm_num) (.cons (by norm_num) .nil), ?_⟩
  · unfold cornerZero; dsimp only; split_ifs <;> norm_num
  · unfold cornerZero; simp

/-- The point with vanishing PDF is drawn with every random number below 1/6. -/
theorem C150_zero_density_witness (r : ℝ) (h0 : 0 ≤ r) (h1 : r < 1 / 6) : ∀ k ∈ cornerZero.candidates r, k = [0, 0] := by
  have ht : cornerZero.total = 3 := by
    unfold MNum.total
    rw [cornerZero_indices]
    simp [cornerZero]
    norm_num
  intro k hk
  have hl : (indices cornerZero.shape).length = 4 := by rw [cornerZero_indices]; rfl
  have e0 : ∀ h : 0 < (indices cornerZero.shape).length, (indices cornerZero.shape)[0]'h = [0, 0] := by rw [cornerZero_indices]; intro _; rfl
  have e1 : ∀ h : 1 < (indices cornerZero.shape).length, (indices cornerZero.shape)[1]'h = [0, 1] := by rw [cornerZero_indices]; intro _; rfl
  have key := (C150_zero_density_drawn cornerZero cornerZero_density 1 (by rw [hl]; norm_num) (by norm_num) (fun j hj => by
    have : j = 0 := by omega
    subst this
    rw [e0]
    simp [cornerZero]) r h0 (by
    rw [ht, e1]
    simp [cornerZero]
    linarith) k).1 hk
  by_contra hne
  have := key.2
  simp [cornerZero, hne] at this

end Verif.Grid
