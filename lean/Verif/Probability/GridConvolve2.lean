import Verif.Probability.GridConvolve
/-!
# C152: theorems
-/
set_option linter.unusedSectionVars false
set_option linter.unusedSimpArgs false
set_option linter.unusedVariables false
namespace Verif.Grid
open Verif.Py Verif.Probability

/-! ## Specification -/

/-- The displacement of the axes: none, or the central value of the normal distribution for `central_values='sum'`. (Specification.) -/
noncomputable def modeShift {n : ℕ} (g : MVN n) (m : CentralMode) (i : Fin n) : ℝ := if m = .sum then g.central i else 0

/-- A point of the grid lies within the axes of the numerical distribution. (Specification.) -/
def Overlap {n : ℕ} (g : MVN n) (d : MNum) (m : ℕ) : Prop :=
  ∃ j, IsIndex (List.replicate n m) j ∧ ∀ i : Fin n, lower d i ≤ convPoint g d m j i ∧ convPoint g d m j i ≤ upper d i

/-! ## Lemmas -/

theorem table_ok {lo hi : List ℝ} {m n : ℕ} (hn : 0 < n) (hl : lo.length = n) (hh : hi.length = n) (hm : 2 ≤ m)
    (hlt : ∀ j < n, lo.getD j 0 < hi.getD j 0) (y : List ℕ → ℝ) (c : Option (List ℝ)) :
    ∃ d, mkMNum (gridOf lo hi m) ⟨List.replicate n m, y⟩ c = .ok d ∧ d.xi = gridOf lo hi m ∧ d.shape = List.replicate n m ∧ d.y = y ∧
      Axes d n m (fun j => lo.getD j 0) (fun j => hi.getD j 0) ∧ IsGrid d.xi := by
  have hne : gridOf lo hi m ≠ [] := by
    intro he
    have := gridOf_length (m := m) hl hh
    rw [he] at this; simp at this; omega
  obtain ⟨d, hd⟩ := C149_accepted (gridOf lo hi m) y c hne (gridOf_even hl hh hm hlt)
  rw [gridOf_shape hl hh] at hd
  have hg : IsGrid (gridOf lo hi m) := ⟨hne, fun x hx => ⟨(gridOf_even hl hh hm hlt x hx).spec.1, (gridOf_even hl hh hm hlt x hx).spec.2.1⟩⟩
  have hxi : d.xi = gridOf lo hi m := by
    have h2 := mkMNum_of hg (fun x hx => (gridOf_even hl hh hm hlt x hx).spec.2.2) y c
    rw [gridOf_shape hl hh] at h2
    rw [h2] at hd
    cases c with
    | some v => unfold finishM at hd; injection hd with hd; rw [← hd]
    | none =>
      unfold finishM at hd
      obtain ⟨v, hv, hd⟩ := bind_eq_ok hd
      injection hd with hd; rw [← hd]
  obtain ⟨c1, c2, c3, -⟩ := C149_construct _ _ _ _ hd
  refine ⟨d, hd, hxi, c2, c3, ⟨by rw [hxi, gridOf_length hl hh], fun j hj => ?_⟩, c1⟩
  unfold lower upper
  rw [hxi, gridOf_getD (hl ▸ hj) (hh ▸ hj), linspace_head hm, linspace_last hm]
  exact ⟨by simp [linspace], linspace_even (hlt j hj) hm, rfl, rfl⟩

theorem linspace_shift (a b c : ℝ) (m : ℕ) : (linspace a b m).map (fun v => v + c) = linspace (a + c) (b + c) m := by
  unfold linspace
  rw [List.map_map]
  refine List.map_congr_left fun i _ => ?_
  simp only [Function.comp_apply]
  ring

theorem density_nonneg (d : MNum) (x : List ℝ) : 0 ≤ density d x := by
  unfold density
  split
  · rename_i v _
    unfold expP
    split
    · exact le_refl _
    · exact (Real.exp_pos _).le
  · exact le_refl _

theorem density_inside {d : MNum} {x : List ℝ} (h : inside d.xi x) : 0 < density d x := by
  unfold density MNum.logpdf
  rw [if_neg (by rw [(inside_iff.1 h).1]; simp), if_pos h]
  exact Real.exp_pos _

theorem convSum_nonneg {n : ℕ} (g : MVN n) (d : MNum) (m : ℕ) (k : List ℕ) : 0 ≤ convSum g d m k := by
  classical
  unfold convSum
  apply List.sum_nonneg
  intro v hv
  obtain ⟨j, hj, rfl⟩ := List.mem_map.1 hv
  by_cases hw : Window m k j
  · rw [if_pos hw]; exact mul_nonneg (density_nonneg _ _) (Real.exp_pos _).le
  · rw [if_neg hw]

theorem window_self {m : ℕ} (hm : 0 < m) (k : List ℕ) : Window m k k := by
  unfold Window
  exact List.forall₂_same.2 fun a _ => ⟨by omega, by omega⟩

theorem convSum_pos {n : ℕ} (g : MVN n) (d : MNum) (hdim : d.xi.length = n) {m : ℕ} (hm : 0 < m) {j : List ℕ}
    (hj : IsIndex (List.replicate n m) j) (hin : ∀ i : Fin n, lower d i ≤ convPoint g d m j i ∧ convPoint g d m j i ≤ upper d i) :
    0 < convSum g d m j := by
  classical
  have hins : inside d.xi (List.ofFn (convPoint g d m j)) := by
    rw [inside_iff, hdim]
    refine ⟨by simp, fun i hi => ?_⟩
    have := hin ⟨i, hi⟩
    unfold lower upper at this
    simpa [List.getD_eq_getElem?_getD, List.getElem?_ofFn, hi] using this
  unfold convSum
  refine lt_of_lt_of_le ?_ (List.single_le_sum ?_ _ (List.mem_map.2 ⟨j, mem_indices.2 hj, rfl⟩))
  · rw [if_pos (window_self hm j)]
    exact mul_pos (density_inside hins) (Real.exp_pos _)
  · intro v hv
    obtain ⟨j', hj', rfl⟩ := List.mem_map.1 hv
    by_cases hw : Window m j j'
    · rw [if_pos hw]; exact mul_nonneg (density_nonneg _ _) (Real.exp_pos _).le
    · rw [if_neg hw]

theorem lower_lt_upper {d : MNum} (hg : IsGrid d.xi) {i : ℕ} (hi : i < d.xi.length) : lower d i < upper d i := by
  have hx : d.xi.getD i [] ∈ d.xi := by
    rw [List.getD_eq_getElem?_getD, List.getElem?_eq_getElem hi]; exact List.getElem_mem _
  obtain ⟨h1, h2⟩ := hg.2 _ hx
  unfold lower upper
  rw [headD_eq, getLastD_eq (by intro h; rw [h] at h1; simp at h1)]
  exact getD_lt h2 (by omega) (by omega)

theorem convolve_axes {n : ℕ} (hn : 0 < n) (g : MVN n) (hsd : ∀ i, 0 < g.sd i) (d : MNum) (hg : IsGrid d.xi) (hdim : d.xi.length = n)
    (mode : CentralMode) :
    ∃ r, convolveGN g d mode = .ok r ∧ r.shape = List.replicate n (convSteps d) ∧ r.y = convTable g d ∧ IsGrid r.xi ∧ r.xi.length = n ∧ r.support = none ∧
      ∀ i : Fin n, (r.xi.getD i []).length = convSteps d ∧ EvenAxis (r.xi.getD i []) ∧ lower r i = convLo g d i + modeShift g mode i ∧
        upper r i = convHi g d i + modeShift g mode i := by
  have haxes := convAxes_eq g (fun i => ⟨rfl, rfl⟩) d
  have hsh : (convAxes g d).map List.length = List.replicate n (convSteps d) := by rw [haxes, gridOf_shape (n := n) (by simp) (by simp)]
  have hxi : shiftAxes (convAxes g d) (toL g.central) mode =
      gridOf (List.ofFn fun i => convLo g d i + modeShift g mode i) (List.ofFn fun i => convHi g d i + modeShift g mode i) (convSteps d) := by
    cases mode with
    | same => simp [modeShift, haxes, shiftAxes]
    | sum =>
      simp only [modeShift, if_true, shiftAxes]
      rw [haxes]
      unfold gridOf toL
      rw [List.ofFn_eq_map, List.ofFn_eq_map, List.ofFn_eq_map, List.ofFn_eq_map, List.ofFn_eq_map, List.zipWith_map, List.zipWith_self, List.zipWith_map,
        List.zipWith_self, List.zipWith_map, List.zipWith_self]
      exact List.map_congr_left fun i _ => linspace_shift _ _ _ _
  have h200 := two_le_steps d
  have hget : ∀ (f : Fin n → ℝ) (j : ℕ) (hj : j < n), (List.ofFn f).getD j 0 = f ⟨j, hj⟩ := fun f j hj => by
    simp [List.getD_eq_getElem?_getD, List.getElem?_ofFn, hj]
  obtain ⟨r, r1, r2, r3, r4, r5, r6⟩ := table_ok hn (lo := List.ofFn fun i => convLo g d i + modeShift g mode i)
    (hi := List.ofFn fun i => convHi g d i + modeShift g mode i) (m := convSteps d) (by simp) (by simp) (by omega) (fun j hj => by
      rw [hget _ j hj, hget _ j hj]
      have := lower_lt_upper hg (hdim ▸ hj : j < d.xi.length)
      have h2 := hsd ⟨j, hj⟩
      unfold convLo convHi
      dsimp only
      linarith) (convTable g d) none
  have hc : convolveGN g d mode = .ok r := by
    unfold convolveGN
    simp only
    rw [hxi, hsh]
    exact r1
  refine ⟨r, hc, r3, r4, r6, r5.1, ((C149_construct _ _ _ _ r1).2.2.2.2.2 rfl).1, fun i => ?_⟩
  have := r5.2 i i.2
  beta_reduce at this
  rw [hget _ _ i.2, hget _ _ i.2] at this
  exact this

/-! ## Theorems -/

/-- **C152 (convolution)** The convolution of a normal with a numerical distribution: a numerical distribution without support on
grids of the largest number of points (at least 200), whose values add up to one and are proportional to the sum, over
the grid points, of the numerical PDF times the centred normal PDF at the difference of the points (minus half a step if
the number of points is even). -/
theorem C152_convolve {n : ℕ} (hn : 0 < n) (g : MVN n) (hsd : ∀ i, 0 < g.sd i) (d : MNum) (hg : IsGrid d.xi) (hdim : d.xi.length = n)
    (mode : CentralMode) (m : ℕ) (hm : IsSteps d m) (hov : Overlap g d m) :
    ∃ r, convolveGN g d mode = .ok r ∧ IsGrid r.xi ∧ IsDensity r ∧ r.support = none ∧ r.shape = List.replicate n m ∧
      ((indices r.shape).map r.y).sum = 1 ∧
      (∀ i : Fin n, EvenAxis (r.xi.getD i []) ∧ lower r i = convLo g d i + modeShift g mode i ∧ upper r i = convHi g d i + modeShift g mode i) ∧
      ∃ c : ℝ, 0 < c ∧ ∀ k, IsIndex r.shape k → r.y k = c * convSum g d m k := by
  have e := IsGreatest.unique hm (isSteps_convSteps d)
  subst e
  obtain ⟨r, r1, r2, r3, r4, -, r5, r6⟩ := convolve_axes hn g hsd d hg hdim mode
  have h200 := two_le_steps d
  obtain ⟨j, hj, hin⟩ := hov
  have hp := convSum_pos g d hdim (by omega) hj hin
  have hmax : ∀ k, max (convSum g d (convSteps d) k) 0 = convSum g d (convSteps d) k := fun k => max_eq_left (convSum_nonneg g d _ k)
  have hS : 0 < ((indices (List.replicate n (convSteps d))).map fun j => convSum g d (convSteps d) j).sum :=
    lt_of_lt_of_le hp (List.single_le_sum (by
      intro v hv
      obtain ⟨k, -, rfl⟩ := List.mem_map.1 hv
      exact convSum_nonneg g d _ k) _ (List.mem_map.2 ⟨j, mem_indices.2 hj, rfl⟩))
  have hy : ∀ k, IsIndex r.shape k → r.y k =
      (((indices (List.replicate n (convSteps d))).map fun j => convSum g d (convSteps d) j).sum)⁻¹ * convSum g d (convSteps d) k := by
    intro k hk
    rw [r3, convTable_eq g d (r2 ▸ hk), hmax, show (fun j => max (convSum g d (convSteps d) j) 0) = fun j => convSum g d (convSteps d) j from funext hmax,
      div_eq_inv_mul]
  refine ⟨r, r1, r4, ⟨fun k hk => ?_, j, r2 ▸ hj, ?_⟩, r5, r2, ?_, fun i => (r6 i).2, _, inv_pos.2 hS, hy⟩
  · rw [hy k hk]
    exact mul_nonneg (inv_pos.2 hS).le (convSum_nonneg g d _ k)
  · rw [hy j (r2 ▸ hj)]
    exact mul_pos (inv_pos.2 hS) hp
  · rw [List.map_congr_left fun k hk => hy k (mem_indices.1 hk), List.sum_map_mul_left, r2]
    exact inv_mul_cancel₀ hS.ne'

/-- **C152 (the grid covers the numerical distribution)** If the central value is in the middle of the axes, the grid extends by six
standard deviations of the normal distribution beyond the axes of the numerical distribution on both sides. -/
theorem C152_covered_partial {n : ℕ} (hn : 0 < n) (g : MVN n) (hsd : ∀ i, 0 < g.sd i) (d : MNum) (hg : IsGrid d.xi) (hdim : d.xi.length = n)
    (h0 : ∀ i : Fin n, d.central.getD i 0 = (d.xi.getD i []).sum / (d.xi.getD i []).length) :
    ∃ r, convolveGN g d .same = .ok r ∧ ∀ i : Fin n, lower r i = lower d i - 6 * g.sd i ∧ upper r i = upper d i + 6 * g.sd i := by
  obtain ⟨r, r1, -, -, -, -, -, r6⟩ := convolve_axes hn g hsd d hg hdim .same
  refine ⟨r, r1, fun i => ?_⟩
  obtain ⟨-, -, h1, h2⟩ := r6 i
  rw [h1, h2]
  unfold convLo convHi offset modeShift
  rw [h0 i]
  simp

/-- **C152 (the grid is displaced)** Otherwise the grid is displaced by the difference of the middle of the axis and the central
value: if this is more than six standard deviations of the normal distribution, the result vanishes at the lower end of the axis of the
numerical distribution, although it has non-zero density there. -/
theorem C152_displaced {n : ℕ} (hn : 0 < n) (g : MVN n) (hsd : ∀ i, 0 < g.sd i) (d : MNum) (hg : IsGrid d.xi) (hdim : d.xi.length = n) (i : Fin n)
    (hi : 6 * g.sd i < offset d i) : ∃ r, convolveGN g d .same = .ok r ∧
      ∀ x : List ℝ, x.length = n → x.getD i 0 ≤ lower d i + (offset d i - 6 * g.sd i) / 2 → r.logpdf x = .ok ⊥ := by
  obtain ⟨r, r1, -, -, -, r0, -, r6⟩ := convolve_axes hn g hsd d hg hdim .same
  refine ⟨r, r1, fun x hx hle => (C149_logpdf_outside r x).1 (hx.trans r0.symm) ?_⟩
  obtain ⟨-, -, h1, -⟩ := r6 i
  have hi1 : (i : ℕ) < r.xi.length := by rw [r0]; exact i.2
  have hi2 : (i : ℕ) < x.length := by rw [hx]; exact i.2
  refine ⟨i, r.xi[(i : ℕ)], x[(i : ℕ)], List.getElem?_eq_getElem hi1, List.getElem?_eq_getElem hi2, Or.inl ?_⟩
  unfold lower at h1
  rw [List.getD_eq_getElem?_getD, List.getElem?_eq_getElem hi1] at h1
  rw [List.getD_eq_getElem?_getD, List.getElem?_eq_getElem hi2] at hle
  rw [show (some r.xi[(i : ℕ)]).getD [] = r.xi[(i : ℕ)] from rfl] at h1
  rw [h1]
  rw [show (some x[(i : ℕ)]).getD 0 = x[(i : ℕ)] from rfl] at hle
  unfold convLo modeShift
  simp only [reduceCtorEq, if_false, add_zero]
  linarith

/-- **C152 (overlap)** The grid has a point within the axes of the numerical distribution if the central value is within the axes
and the step is not larger than half of their length. -/
theorem C152_overlap {n : ℕ} (g : MVN n) (hsd : ∀ i, 0 < g.sd i) (d : MNum) (hg : IsGrid d.xi) (hdim : d.xi.length = n) (m : ℕ) (hm : IsSteps d m)
    (hoff : ∀ i : Fin n, |offset d i| ≤ (upper d i - lower d i) / 2) (hst : ∀ i : Fin n, convStep g d m i ≤ (upper d i - lower d i) / 2) :
    Overlap g d m := by
  have h200 : 200 ≤ m := hm.2 (Or.inl rfl)
  have h200' : (200 : ℝ) ≤ m := by exact_mod_cast h200
  have key : ∀ i : Fin n, ∃ a : ℕ, a < m ∧ lower d i ≤ convLo g d i + a * convStep g d m i ∧ convLo g d i + a * convStep g d m i ≤ upper d i := by
    intro i
    have hlt := lower_lt_upper hg (i := i) (by rw [hdim]; exact i.2)
    obtain ⟨o1, o2⟩ := abs_le.1 (hoff i)
    have hs := hsd i
    have hst' := hst i
    have hpos : 0 < convStep g d m i := by
      unfold convStep convHi convLo
      apply div_pos <;> linarith
    have hstep : convStep g d m i * ((m : ℝ) - 1) = convHi g d i - convLo g d i := by
      unfold convStep; rw [div_mul_cancel₀]; linarith
    rcases le_or_gt (lower d i) (convLo g d i) with h | h
    · refine ⟨0, by omega, by simpa using h, ?_⟩
      simp only [Nat.cast_zero, zero_mul, add_zero]
      unfold convLo
      linarith
    · have hge : 0 ≤ (lower d i - convLo g d i) / convStep g d m i := div_nonneg (by linarith) hpos.le
      have c1 := Nat.le_ceil ((lower d i - convLo g d i) / convStep g d m i)
      have c2 := Nat.ceil_lt_add_one hge
      rw [div_le_iff₀ hpos] at c1
      have c2' : (⌈(lower d i - convLo g d i) / convStep g d m i⌉₊ : ℝ) * convStep g d m i < lower d i - convLo g d i + convStep g d m i := by
        have := mul_lt_mul_of_pos_right c2 hpos
        rwa [add_mul, div_mul_cancel₀ _ hpos.ne', one_mul] at this
      refine ⟨_, ?_, by linarith, by linarith⟩
      have hhi : lower d i + convStep g d m i ≤ convHi g d i := by unfold convHi; linarith
      have : (⌈(lower d i - convLo g d i) / convStep g d m i⌉₊ : ℝ) * convStep g d m i < ((m : ℝ) - 1) * convStep g d m i := by
        rw [mul_comm ((m : ℝ) - 1), hstep]; linarith
      have := lt_of_mul_lt_mul_right this hpos.le
      have h3 : (⌈(lower d i - convLo g d i) / convStep g d m i⌉₊ : ℝ) < m := by linarith
      exact_mod_cast h3
  choose a ha using key
  refine ⟨List.ofFn a, ?_, fun i => ?_⟩
  · unfold IsIndex
    rw [List.forall₂_iff_get]
    refine ⟨by simp, fun i h1 h2 => ?_⟩
    simp only [List.get_eq_getElem, List.getElem_replicate, List.getElem_ofFn]
    exact (ha _).1
  · unfold convPoint
    rw [show (List.ofFn a).getD (i : ℕ) 0 = a i by simp [List.getD_eq_getElem?_getD, List.getElem?_ofFn]]
    exact (ha i).2

/-- **C152 (wide normal distribution)** If the number of points is even and the central value in the middle of an axis, the
numerical distribution falls between the grid points when the normal distribution is wide enough (for 200 points: a
standard deviation of more than 16.5 times the length of the axis): the convolution sum vanishes at every grid point, and the code
divides zero by zero. -/
theorem C152_wide {n : ℕ} (g : MVN n) (d : MNum) (hg : IsGrid d.xi) (hdim : d.xi.length = n) (m : ℕ) (hm : IsSteps d m) (heven : m % 2 = 0) (i : Fin n)
    (h0 : offset d i = 0) (hmid : (d.xi.getD i []).sum / (d.xi.getD i []).length = (lower d i + upper d i) / 2)
    (hw : ((m : ℝ) - 2) * (upper d i - lower d i) < 12 * g.sd i) : ∀ k, convSum g d m k = 0 := by
  classical
  intro k
  unfold convSum
  apply List.sum_eq_zero
  intro v hv
  obtain ⟨j, hj, rfl⟩ := List.mem_map.1 hv
  have h200 : 200 ≤ m := hm.2 (Or.inl rfl)
  have h200' : (200 : ℝ) ≤ m := by exact_mod_cast h200
  have hlt := lower_lt_upper hg (i := i) (by rw [hdim]; exact i.2)
  have hstep : convStep g d m i * ((m : ℝ) - 1) = convHi g d i - convLo g d i := by
    unfold convStep; rw [div_mul_cancel₀]; linarith
  have hs : upper d i - lower d i < convStep g d m i := by
    have h1 : (upper d i - lower d i) * ((m : ℝ) - 1) < convStep g d m i * ((m : ℝ) - 1) := by
      rw [hstep]; unfold convHi convLo; rw [h0]; nlinarith
    exact lt_of_mul_lt_mul_right h1 (by linarith)
  have hout : ¬ (lower d i ≤ convPoint g d m j i ∧ convPoint g d m j i ≤ upper d i) := by
    rintro ⟨p1, p2⟩
    have hlo : convLo g d i = (lower d i + upper d i) / 2 - ((m : ℝ) - 1) / 2 * convStep g d m i := by
      have : convLo g d i + convHi g d i = lower d i + upper d i := by unfold convLo convHi; rw [h0]; ring
      linarith
    have hp : 0 < convStep g d m i := by linarith
    unfold convPoint at p1 p2
    obtain ⟨q, rfl⟩ : ∃ q, m = 2 * q := ⟨m / 2, by omega⟩
    rcases lt_or_ge (j.getD (i : ℕ) 0) q with hq | hq
    · have hq' : ((j.getD (i : ℕ) 0 : ℕ) : ℝ) + 1 ≤ q := by exact_mod_cast hq
      rw [hlo] at p1
      push_cast at p1
      nlinarith
    · have hq' : (q : ℝ) ≤ ((j.getD (i : ℕ) 0 : ℕ) : ℝ) := by exact_mod_cast hq
      rw [hlo] at p2
      push_cast at p2
      nlinarith
  have hd0 : density d (List.ofFn (convPoint g d m j)) = 0 := by
    unfold density
    rw [(C149_logpdf_outside d _).1 (by simp [hdim]) ⟨i, d.xi[(i : ℕ)]'(by rw [hdim]; exact i.2), convPoint g d m j i, List.getElem?_eq_getElem _, by simp, ?_⟩]
    · rfl
    · unfold lower upper at hout
      rw [List.getD_eq_getElem?_getD, List.getElem?_eq_getElem (show (i : ℕ) < d.xi.length by rw [hdim]; exact i.2)] at hout
      by_contra hh
      push Not at hh
      exact hout hh
  rw [hd0, zero_mul, ite_self]

/-! ## Concrete cases -/

/-- A distribution on the unit square with its maximum in the corner. (Specification.) -/
noncomputable def cornerPeak : MNum := ⟨[[0, 1], [0, 1]], fun k => if k = [0, 0] then 3 else 1, [0, 0], some ([0, 0], [1, 1])⟩

/-- Two independent normal variables with central value 0. (Specification.) -/
noncomputable def narrow (s : ℝ) : MVN 2 := ⟨fun _ => 0, true, Matrix.of fun i j => if i = j then s ^ 2 else 0, fun _ => s, 1⟩

theorem cornerPeak_facts : IsGrid cornerPeak.xi ∧ IsDensity cornerPeak ∧ cornerPeak.xi.length = 2 ∧ IsSteps cornerPeak 200 ∧
    (∀ i < 2, lower cornerPeak i = 0 ∧ upper cornerPeak i = 1 ∧ offset cornerPeak i = 1 / 2) := by
  refine ⟨⟨by simp [cornerPeak], by simp [cornerPeak]⟩, ⟨fun k _ => ?_, [0, 0], .cons (by simp [cornerPeak]) (.cons (by simp [cornerPeak]) .nil), ?_⟩, rfl,
    ⟨Or.inl rfl, ?_⟩, fun i hi => ?_⟩
  · unfold cornerPeak; dsimp only; split_ifs <;> norm_num
  · unfold cornerPeak; simp
  · rintro v (rfl | ⟨x, hx, rfl⟩)
    · exact le_refl _
    · simp [cornerPeak] at hx; rw [hx]; simp
  · interval_cases i <;> refine ⟨rfl, rfl, ?_⟩ <;> simp [offset, cornerPeak]

/-- The convolution of this distribution with normal variables of standard deviation 1/100 exists, but it vanishes at the point with
the largest PDF. -/
theorem C152_witness : ∃ r, convolveGN (narrow (1 / 100)) cornerPeak .same = .ok r ∧ IsDensity r ∧ r.logpdf [0, 0] = .ok ⊥ ∧
    (∀ k, IsIndex cornerPeak.shape k → cornerPeak.y k ≤ cornerPeak.y [0, 0]) ∧ gridPoint cornerPeak.xi [0, 0] = [0, 0] := by
  obtain ⟨f1, f2, f3, f4, f5⟩ := cornerPeak_facts
  have hsd : ∀ i, 0 < (narrow (1 / 100)).sd i := fun i => by simp [narrow]
  have hov : Overlap (narrow (1 / 100)) cornerPeak 200 := by
    apply C152_overlap _ hsd _ f1 f3 _ f4
    · intro i
      obtain ⟨a, b, c⟩ := f5 i i.2
      rw [a, b, c]; norm_num
    · intro i
      obtain ⟨a, b, c⟩ := f5 i i.2
      unfold convStep convHi convLo
      rw [a, b, c]; simp only [narrow]; norm_num
  obtain ⟨r, r1, -, r2, -⟩ := C152_convolve (by norm_num) _ hsd _ f1 f3 .same 200 f4 hov
  obtain ⟨r', h1, h2⟩ := C152_displaced (by norm_num) _ hsd _ f1 f3 0 (by
    rw [(f5 (0 : Fin 2) (by norm_num)).2.2]; simp only [narrow]; norm_num)
  rw [r1] at h1
  injection h1 with h1
  subst h1
  refine ⟨r, r1, r2, h2 [0, 0] rfl ?_, fun k _ => ?_, rfl⟩
  · have e := (f5 (0 : Fin 2) (by norm_num))
    rw [e.1, e.2.2]; simp only [narrow]; norm_num
  · unfold cornerPeak; dsimp only; rw [if_pos rfl]; split_ifs <;> norm_num

/-- The flat distribution on the unit square and a normal distribution of standard deviation 20 meet the hypotheses of `C152_wide`. -/
theorem C152_wide_witness : ∃ d : MNum, IsGrid d.xi ∧ IsDensity d ∧ IsSteps d 200 ∧ ∀ k, convSum (narrow 20) d 200 k = 0 := by
  refine ⟨⟨[[0, 1], [0, 1]], fun k => 1, [1 / 2, 1 / 2], none⟩, ⟨by simp, by simp⟩,
    ⟨fun _ _ => zero_le_one, [0, 0], .cons (by simp) (.cons (by simp) .nil), one_pos⟩, ⟨Or.inl rfl, ?_⟩, ?_⟩
  · rintro v (rfl | ⟨x, hx, rfl⟩)
    · exact le_refl _
    · simp at hx; rw [hx]; simp
  · refine C152_wide (n := 2) (narrow 20) _ ⟨by simp, by simp⟩ rfl 200 ⟨Or.inl rfl, ?_⟩ (by norm_num) 0 ?_ ?_ ?_
    · rintro v (rfl | ⟨x, hx, rfl⟩)
      · exact le_refl _
      · simp at hx; rw [hx]; simp
    · simp [offset]
    · simp [lower, upper]
    · simp [lower, upper, narrow]; norm_num

end Verif.Grid
