import Verif.Probability.GridCombine
/-!
# C152: convolution of a multivariate normal with a numerical distribution
-/
set_option linter.unusedSectionVars false
set_option linter.unusedSimpArgs false
set_option linter.unusedVariables false
namespace Verif.Grid
open Verif.Py Verif.Probability

/-! ## Specification -/

/-- The mean of the points of an axis minus the central value. (Specification.) -/
noncomputable def offset (d : MNum) (i : ℕ) : ℝ := (d.xi.getD i []).sum / (d.xi.getD i []).length - d.central.getD i 0

/-- The first point of an axis of the convolution. (Specification.) -/
noncomputable def convLo {n : ℕ} (g : MVN n) (d : MNum) (i : Fin n) : ℝ := lower d i - 6 * g.sd i + offset d i

/-- The last point of an axis of the convolution. (Specification.) -/
noncomputable def convHi {n : ℕ} (g : MVN n) (d : MNum) (i : Fin n) : ℝ := upper d i + 6 * g.sd i + offset d i

/-- `m` is the largest of 200 and the numbers of points of the axes. (Specification.) -/
def IsSteps (d : MNum) (m : ℕ) : Prop := IsGreatest {v | v = 200 ∨ ∃ x ∈ d.xi, v = x.length} m

/-- The step. (Specification.) -/
noncomputable def convStep {n : ℕ} (g : MVN n) (d : MNum) (m : ℕ) (i : Fin n) : ℝ := (convHi g d i - convLo g d i) / ((m : ℝ) - 1)

/-- The coordinates of a grid point. (Specification.) -/
noncomputable def convPoint {n : ℕ} (g : MVN n) (d : MNum) (m : ℕ) (k : List ℕ) (i : Fin n) : ℝ :=
  convLo g d i + (k.getD i 0 : ℕ) * convStep g d m i

/-- The grid points that contribute to the sum: not further away than half of the grid. (Specification.) -/
def Window (m : ℕ) (k j : List ℕ) : Prop := List.Forall₂ (fun a b => b ≤ (m - 1) / 2 + a ∧ (m - 1) / 2 + a < b + m) k j

open Classical in
/-- The convolution sum at a grid point, with the normal distribution centred at zero and evaluated at the difference of the points
minus half a step if the number of points is even. (Specification.) -/
noncomputable def convSum {n : ℕ} (g : MVN n) (d : MNum) (m : ℕ) (k : List ℕ) : ℝ :=
  ((indices (List.replicate n m)).map fun j => if Window m k j then
    density d (List.ofFn (convPoint g d m j)) * Real.exp (g.logpdf fun i =>
      g.central i + (convPoint g d m k i - convPoint g d m j i - if m % 2 = 0 then convStep g d m i / 2 else 0)) else 0).sum

/-! ## Lemmas -/

theorem isSteps_convSteps (d : MNum) : IsSteps d (convSteps d) := by
  unfold convSteps IsSteps
  generalize d.xi = l
  have key : ∀ (l : List (List ℝ)) (a : ℕ), (a ≤ (l.map List.length).foldl max a ∧ ∀ x ∈ l, x.length ≤ (l.map List.length).foldl max a) ∧
      ((l.map List.length).foldl max a = a ∨ ∃ x ∈ l, (l.map List.length).foldl max a = x.length) := by
    intro l
    induction l with
    | nil => intro a; simp
    | cons x r ih =>
      intro a
      obtain ⟨⟨h1, h2⟩, h3⟩ := ih (max a x.length)
      simp only [List.map_cons, List.foldl_cons]
      refine ⟨⟨(le_max_left _ _).trans h1, fun y hy => ?_⟩, ?_⟩
      · rcases List.mem_cons.1 hy with rfl | hy
        · exact (le_max_right _ _).trans h1
        · exact h2 y hy
      · rcases h3 with h3 | ⟨y, hy, h3⟩
        · rcases max_choice a x.length with h | h
          · left; rw [h3, h]
          · right; exact ⟨x, by simp, by rw [h3, h]⟩
        · right; exact ⟨y, List.mem_cons_of_mem _ hy, h3⟩
  obtain ⟨⟨h1, h2⟩, h3⟩ := key l 200
  refine ⟨h3, ?_⟩
  rintro v (rfl | ⟨x, hx, rfl⟩)
  · exact h1
  · exact h2 x hx

theorem convAxes_eq {n : ℕ} (g : MVN n) (hsup : ∀ i, g.support.1 i = g.central i - 6 * g.sd i ∧ g.support.2 i = g.central i + 6 * g.sd i) (d : MNum) :
    convAxes g d = gridOf (List.ofFn (convLo g d)) (List.ofFn (convHi g d)) (convSteps d) := by
  unfold convAxes gridOf
  rw [List.ofFn_eq_map, List.ofFn_eq_map, List.zipWith_map, List.zipWith_self]
  refine List.map_congr_left fun i _ => ?_
  unfold convBounds convLo convHi offset lower upper mean
  refine congrArg₂ (fun a b => linspace a b (convSteps d)) ?_ ?_
  · simp only [(hsup i).1, (hsup i).2]; ring
  · simp only [(hsup i).1, (hsup i).2]; ring

theorem linspace_mean {a b : ℝ} {m : ℕ} (hm : 2 ≤ m) : mean (linspace a b m) = (a + b) / 2 := by
  have key : ∀ (δ : ℝ) (k : ℕ), ((List.range k).map fun i : ℕ => a + i * δ).sum = k * a + δ * (k * (k - 1) / 2) := by
    intro δ k
    induction k with
    | zero => simp
    | succ k ih =>
      rw [List.range_succ, List.map_append, List.sum_append, ih]
      simp
      ring
  have h2 : (2 : ℝ) ≤ m := by exact_mod_cast hm
  have h1 : (m : ℝ) - 1 ≠ 0 := by linarith
  have h0 : (m : ℝ) ≠ 0 := by linarith
  unfold mean linspace
  rw [key]
  simp only [List.length_map, List.length_range]
  field_simp
  ring

theorem gridPoint_getD {xi : List (List ℝ)} {k : List ℕ} (hk : IsIndex (xi.map List.length) k) (i : ℕ) (hi : i < xi.length) :
    (gridPoint xi k).getD i 0 = (xi.getD i []).getD (k.getD i 0) 0 := by
  induction xi generalizing k i with
  | nil => simp at hi
  | cons a as ih =>
    cases hk with
    | cons h1 h2 =>
      cases i with
      | zero => rfl
      | succ i => simpa [gridPoint] using ih h2 i (by simpa using hi)

theorem linspace_getD {a b : ℝ} {m i : ℕ} (hi : i < m) : (linspace a b m).getD i 0 = a + i * ((b - a) / ((m : ℝ) - 1)) := by
  unfold linspace
  simp [List.getD_eq_getElem?_getD, List.getElem?_map, List.getElem?_range hi]

theorem index_replicate {n m : ℕ} {k : List ℕ} (h : IsIndex (List.replicate n m) k) : k.length = n ∧ ∀ i < n, k.getD i 0 < m := by
  unfold IsIndex at h
  rw [List.forall₂_iff_get] at h
  have hl : k.length = n := by rw [← h.1]; simp
  refine ⟨hl, fun i hi => ?_⟩
  have := h.2 i (by simpa using hi) (hl ▸ hi)
  rw [List.getD_eq_getElem?_getD, List.getElem?_eq_getElem (hl ▸ hi)]
  simpa using this

theorem convGrid_point {n : ℕ} (g : MVN n) (d : MNum) {m : ℕ} {k : List ℕ} (hk : IsIndex (List.replicate n m) k) :
    gridPoint (gridOf (List.ofFn (convLo g d)) (List.ofFn (convHi g d)) m) k = List.ofFn (convPoint g d m k) := by
  have hlen : (gridOf (List.ofFn (convLo g d)) (List.ofFn (convHi g d)) m).length = n := gridOf_length (by simp) (by simp)
  have hk' : IsIndex ((gridOf (List.ofFn (convLo g d)) (List.ofFn (convHi g d)) m).map List.length) k := by
    rw [gridOf_shape (n := n) (by simp) (by simp)]; exact hk
  have hpl : ∀ (xi : List (List ℝ)) (k : List ℕ), IsIndex (xi.map List.length) k → (gridPoint xi k).length = xi.length := by
    intro xi
    induction xi with
    | nil => intro k h; cases h; rfl
    | cons a as ih => intro k h; cases h with | cons h1 h2 => simp [gridPoint, ih _ h2]
  apply List.ext_getElem
  · rw [hpl _ _ hk', hlen]; simp
  · intro i h1 h2
    have hi : i < n := by simpa using h2
    have e := gridPoint_getD hk' i (by rw [hlen]; exact hi)
    rw [List.getD_eq_getElem?_getD, List.getElem?_eq_getElem h1, gridOf_getD (by simpa using hi) (by simpa using hi),
      linspace_getD ((index_replicate hk).2 i hi)] at e
    rw [show (gridPoint (gridOf (List.ofFn (convLo g d)) (List.ofFn (convHi g d)) m) k)[i] = _ from e, List.getElem_ofFn]
    unfold convPoint convStep
    simp [List.getD_eq_getElem?_getD, List.getElem?_ofFn, hi]

theorem add_iff (c : ℕ) (k j l : List ℕ) (hj : j.length = k.length) (hl : l.length = k.length) :
    List.zipWith (· + ·) j l = k.map (c + ·) ↔ List.Forall₂ (fun a b => b ≤ c + a) k j ∧ l = List.zipWith (fun a b => c + a - b) k j := by
  induction k generalizing j l with
  | nil =>
    rw [List.length_nil, List.length_eq_zero_iff] at hj hl
    subst hj; subst hl; simp
  | cons a k ih =>
    cases j with
    | nil => simp at hj
    | cons b j =>
      cases l with
      | nil => simp at hl
      | cons e l =>
        simp only [List.zipWith_cons_cons, List.map_cons, List.cons.injEq, List.forall₂_cons]
        rw [ih j l (by simpa using hj) (by simpa using hl)]
        constructor
        · rintro ⟨h1, h2, h3⟩; exact ⟨⟨by omega, h2⟩, by omega, h3⟩
        · rintro ⟨⟨h1, h2⟩, h3, h4⟩; exact ⟨by omega, h2, h4⟩

theorem sum_ite_single {α : Type} [DecidableEq α] (l : List α) (hn : l.Nodup) (a : α) (ha : a ∈ l) (F : α → ℝ) :
    (l.map fun x => if x = a then F x else 0).sum = F a := by
  induction l with
  | nil => simp at ha
  | cons b l ih =>
    rw [List.nodup_cons] at hn
    rw [List.map_cons, List.sum_cons]
    rcases List.mem_cons.1 ha with rfl | ha
    · rw [if_pos rfl, List.sum_eq_zero, add_zero]
      intro v hv
      obtain ⟨x, hx, rfl⟩ := List.mem_map.1 hv
      rw [if_neg]
      rintro rfl; exact hn.1 hx
    · rw [if_neg (by rintro rfl; exact hn.1 ha), zero_add, ih hn.2 ha]

theorem window_iff {n m : ℕ} {k j : List ℕ} (hk : k.length = n) (hj : j.length = n) (hm : 0 < m) : Window m k j ↔
    List.Forall₂ (fun a b => b ≤ (m - 1) / 2 + a) k j ∧ IsIndex (List.replicate n m) (List.zipWith (fun a b => (m - 1) / 2 + a - b) k j) := by
  unfold Window IsIndex
  rw [List.forall₂_iff_get, List.forall₂_iff_get, List.forall₂_iff_get]
  constructor
  · rintro ⟨h1, h2⟩
    refine ⟨⟨h1, fun i a b => (h2 i a b).1⟩, by simp [hk, hj], fun i a b => ?_⟩
    have := h2 i (by simp at b; omega) (by simp at b; omega)
    simp at this ⊢
    omega
  · rintro ⟨⟨h1, h2⟩, h3, h4⟩
    refine ⟨h1, fun i a b => ⟨h2 i a b, ?_⟩⟩
    have := h4 i (by simp; omega) (by simp; omega)
    have h5 := h2 i a b
    simp at this h5 ⊢
    omega

theorem convSame_eq {n m : ℕ} (hm : 0 < m) (a b : List ℕ → ℝ) {k : List ℕ} (hk : IsIndex (List.replicate n m) k) (B : List ℕ → ℝ)
    (hB : ∀ j, IsIndex (List.replicate n m) j → Window m k j → b (List.zipWith (fun a b => (m - 1) / 2 + a - b) k j) = B j) :
    convSame (List.replicate n m) a b k = ((indices (List.replicate n m)).map fun j => by classical exact if Window m k j then a j * B j else 0).sum := by
  classical
  unfold convSame
  refine congrArg List.sum (List.map_congr_left fun j hj => ?_)
  rw [mem_indices] at hj
  obtain ⟨k1, -⟩ := index_replicate hk
  obtain ⟨j1, -⟩ := index_replicate hj
  have ht : List.zipWith (fun m i => (m - 1) / 2 + i) (List.replicate n m) k = k.map ((m - 1) / 2 + ·) := by
    apply List.ext_getElem
    · simp [k1]
    · intro i h1 h2; simp
  have hcond : ∀ l ∈ indices (List.replicate n m), (List.zipWith (· + ·) j l = List.zipWith (fun m i => (m - 1) / 2 + i) (List.replicate n m) k) ↔
      (List.Forall₂ (fun a b => b ≤ (m - 1) / 2 + a) k j ∧ l = List.zipWith (fun a b => (m - 1) / 2 + a - b) k j) := by
    intro l hl
    rw [mem_indices] at hl
    obtain ⟨l1, -⟩ := index_replicate hl
    rw [ht, add_iff _ _ _ _ (j1.trans k1.symm) (l1.trans k1.symm)]
  by_cases hw : Window m k j
  · obtain ⟨w1, w2⟩ := (window_iff k1 j1 hm).1 hw
    rw [if_pos hw, ← hB j hj hw, ← sum_ite_single (indices (List.replicate n m)) (nodup_indices _) _ (mem_indices.2 w2) fun l => a j * b l]
    refine congrArg List.sum (List.map_congr_left fun l hl => ?_)
    by_cases h : l = List.zipWith (fun a b => (m - 1) / 2 + a - b) k j
    · rw [if_pos h, if_pos ((hcond l hl).2 ⟨w1, h⟩)]
    · rw [if_neg h, if_neg fun hh => h ((hcond l hl).1 hh).2]
  · rw [if_neg hw]
    apply List.sum_eq_zero
    intro v hv
    obtain ⟨l, hl, rfl⟩ := List.mem_map.1 hv
    rw [if_neg]
    intro hh
    obtain ⟨c1, c2⟩ := (hcond l hl).1 hh
    exact hw ((window_iff k1 j1 hm).2 ⟨c1, c2 ▸ mem_indices.1 hl⟩)

theorem two_le_steps (d : MNum) : 200 ≤ convSteps d := (isSteps_convSteps d).2 (Or.inl rfl)

theorem convTable_eq {n : ℕ} (g : MVN n) (d : MNum) {k : List ℕ} (hk : IsIndex (List.replicate n (convSteps d)) k) :
    convTable g d k = max (convSum g d (convSteps d) k) 0 /
      ((indices (List.replicate n (convSteps d))).map fun j => max (convSum g d (convSteps d) j) 0).sum := by
  classical
  have h200 := two_le_steps d
  generalize hm : convSteps d = m at hk h200
  have haxes := convAxes_eq g (fun i => ⟨rfl, rfl⟩) d
  rw [hm] at haxes
  have hsh : (convAxes g d).map List.length = List.replicate n m := by rw [haxes, gridOf_shape (n := n) (by simp) (by simp)]
  have hf : ∀ k, IsIndex (List.replicate n m) k → convSame ((convAxes g d).map List.length) (fun j => density d (gridPoint (convAxes g d) j))
      (fun j => Real.exp (g.logpdf (shiftPoint g (convAxes g d) j))) k = convSum g d m k := by
    intro k hk
    rw [hsh, convSame_eq (by omega) _ _ hk (fun j => Real.exp (g.logpdf fun i =>
      g.central i + (convPoint g d m k i - convPoint g d m j i - if m % 2 = 0 then convStep g d m i / 2 else 0)))]
    · unfold convSum
      refine congrArg List.sum (List.map_congr_left fun j hj => ?_)
      rw [haxes, convGrid_point g d (mem_indices.1 hj)]
    · intro j hj hw
      obtain ⟨k1, -⟩ := index_replicate hk
      obtain ⟨j1, -⟩ := index_replicate hj
      obtain ⟨w1, w2⟩ := (window_iff k1 j1 (by omega)).1 hw
      congr 2
      funext i
      unfold shiftPoint
      rw [haxes, convGrid_point g d w2, gridOf_getD (by simp) (by simp), linspace_mean (by omega)]
      have hget : ∀ f : Fin n → ℝ, (List.ofFn f).getD (i : ℕ) 0 = f i := fun f => by
        simp [List.getD_eq_getElem?_getD, List.getElem?_ofFn]
      rw [hget, hget, hget]
      unfold convPoint
      have hle : j.getD (i : ℕ) 0 ≤ (m - 1) / 2 + k.getD (i : ℕ) 0 := by
        rw [List.forall₂_iff_get] at w1
        have := w1.2 i (by rw [k1]; exact i.2) (by rw [j1]; exact i.2)
        rw [List.getD_eq_getElem?_getD, List.getD_eq_getElem?_getD, List.getElem?_eq_getElem (show (i : ℕ) < k.length by rw [k1]; exact i.2),
          List.getElem?_eq_getElem (show (i : ℕ) < j.length by rw [j1]; exact i.2)]
        simpa using this
      have hz : (List.zipWith (fun a b => (m - 1) / 2 + a - b) k j).getD (i : ℕ) 0 = (m - 1) / 2 + k.getD (i : ℕ) 0 - j.getD (i : ℕ) 0 := by
        simp [List.getD_eq_getElem?_getD, List.getElem?_zipWith, List.getElem?_eq_getElem (show (i : ℕ) < k.length by rw [k1]; exact i.2),
          List.getElem?_eq_getElem (show (i : ℕ) < j.length by rw [j1]; exact i.2)]
      rw [hz, Nat.cast_sub hle, Nat.cast_add]
      have hm1 : (m : ℝ) - 1 ≠ 0 := by
        have : (200 : ℝ) ≤ m := by exact_mod_cast h200
        linarith
      have hhi : convHi g d i = convLo g d i + ((m : ℝ) - 1) * convStep g d m i := by
        unfold convStep; field_simp; ring
      rw [hhi]
      have hhalf : (((m - 1) / 2 : ℕ) : ℝ) = ((m : ℝ) - 1) / 2 - if m % 2 = 0 then 1 / 2 else 0 := by
        split_ifs with h
        · have : m = 2 * ((m - 1) / 2) + 2 := by omega
          have : (m : ℝ) = 2 * (((m - 1) / 2 : ℕ) : ℝ) + 2 := by exact_mod_cast this
          linarith
        · have : m = 2 * ((m - 1) / 2) + 1 := by omega
          have : (m : ℝ) = 2 * (((m - 1) / 2 : ℕ) : ℝ) + 1 := by exact_mod_cast this
          linarith
      rw [hhalf]
      split_ifs <;> ring
  unfold convTable
  simp only
  rw [hf k hk]
  congr 1
  refine congrArg List.sum ?_
  rw [List.map_congr_left (fun j hj => by rw [hf j (hsh ▸ mem_indices.1 hj)]), hsh]

end Verif.Grid
