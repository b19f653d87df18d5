import Verif.Probability.Grid
import Verif.Probability.CombineNumerical
/-!
# C149: multivariate numerical distributions
-/
set_option linter.unusedSectionVars false
set_option linter.unusedSimpArgs false
set_option linter.unusedVariables false
namespace Verif.Grid
open Verif.Py Verif.Probability
open Verif.DistDict (evenCheck)

/-! ## Specification -/

/-- An index tuple of an array of this shape. (Specification.) -/
def IsIndex (shape k : List ℕ) : Prop := List.Forall₂ (fun m i => i < m) shape k

/-- A grid: at least one axis, every axis has at least two points in ascending order. (Specification.) -/
def IsGrid (xi : List (List ℝ)) : Prop := xi ≠ [] ∧ ∀ x ∈ xi, 2 ≤ x.length ∧ x.Pairwise (· < ·)

/-- The values are non-negative and not all zero. (Specification.) -/
def IsDensity (d : MNum) : Prop := (∀ k, IsIndex d.shape k → 0 ≤ d.y k) ∧ ∃ k, IsIndex d.shape k ∧ 0 < d.y k

/-- An axis with equal steps. (Specification.) -/
def EvenAxis (x : List ℝ) : Prop :=
  ∃ (a δ : ℝ) (m : ℕ), 0 < δ ∧ 2 ≤ m ∧ x = (List.range m).map fun i : ℕ => a + i * δ

/-! ## Lemmas -/

theorem mem_indices {shape k : List ℕ} : k ∈ indices shape ↔ IsIndex shape k := by
  unfold IsIndex
  induction shape generalizing k with
  | nil => simp [indices]
  | cons m ms ih =>
    rw [indices, List.mem_flatMap]
    constructor
    · rintro ⟨i, hi, hk⟩
      rw [List.mem_map] at hk
      obtain ⟨k', hk', rfl⟩ := hk
      exact List.Forall₂.cons (List.mem_range.1 hi) (ih.1 hk')
    · intro h
      cases h with
      | cons h1 h2 => exact ⟨_, List.mem_range.2 h1, List.mem_map.2 ⟨_, ih.2 h2, rfl⟩⟩

theorem lex_indices (shape : List ℕ) : (indices shape).Pairwise (List.Lex (· < ·)) := by
  induction shape with
  | nil => simp [indices]
  | cons m ms ih =>
    rw [indices, List.pairwise_flatMap]
    refine ⟨fun i _ => ?_, ?_⟩
    · rw [List.pairwise_map]
      exact ih.imp fun h => List.Lex.cons h
    · refine (List.pairwise_lt_range (n := m)).imp fun hij => ?_
      intro a ha b hb
      rw [List.mem_map] at ha hb
      obtain ⟨a', _, rfl⟩ := ha
      obtain ⟨b', _, rfl⟩ := hb
      exact List.Lex.rel hij

theorem nodup_indices (shape : List ℕ) : (indices shape).Nodup := by
  rw [List.Nodup]
  refine (lex_indices shape).imp fun {a b} h => ?_
  rintro rfl
  exact List.lex_irrefl (fun x => lt_irrefl x) _ h

theorem count_lt {a : List ℝ} (h : a.Pairwise (· < ·)) (t : ℝ) (j : ℕ) (hj : j < a.length) :
    a.getD j 0 < t ↔ j < (a.filter fun v => decide (v < t)).length := by
  induction a generalizing j with
  | nil => simp at hj
  | cons b a ih =>
    rw [List.pairwise_cons] at h
    by_cases hb : b < t
    · rw [List.filter_cons_of_pos (by simpa using hb)]
      cases j with
      | zero => simp [hb]
      | succ j =>
        simp only [List.length_cons, Nat.add_lt_add_iff_right] at hj ⊢
        simpa using ih h.2 j hj
    · rw [List.filter_cons_of_neg (by simpa using hb)]
      have he : a.filter (fun v => decide (v < t)) = [] := by
        rw [List.filter_eq_nil_iff]
        intro v hv
        simp only [decide_eq_true_eq]
        have := h.1 v hv
        intro hlt
        linarith
      rw [he]
      simp only [List.length_nil, Nat.not_lt_zero, iff_false, not_lt]
      cases j with
      | zero => simpa using not_lt.1 hb
      | succ j =>
        simp only [List.length_cons, Nat.add_lt_add_iff_right] at hj
        have : a.getD j 0 ∈ a := by
          rw [List.getD_eq_getElem?_getD, List.getElem?_eq_getElem hj]
          exact List.getElem_mem _
        have h2 := h.1 _ this
        simp only [List.getD_cons_succ]
        linarith [not_lt.1 hb]

theorem getD_lt {a : List ℝ} (h : a.Pairwise (· < ·)) {i j : ℕ} (hij : i < j) (hj : j < a.length) : a.getD i 0 < a.getD j 0 := by
  have := List.pairwise_iff_getElem.1 h i j (by omega) hj hij
  rw [List.getD_eq_getElem?_getD, List.getD_eq_getElem?_getD, List.getElem?_eq_getElem hj, List.getElem?_eq_getElem (by omega : i < a.length)]
  exact this

theorem getD_le {a : List ℝ} (h : a.Pairwise (· < ·)) {i j : ℕ} (hij : i ≤ j) (hj : j < a.length) : a.getD i 0 ≤ a.getD j 0 := by
  rcases hij.eq_or_lt with rfl | hij
  · exact le_refl _
  · exact (getD_lt h hij hj).le

theorem headD_eq {a : List ℝ} : a.headD 0 = a.getD 0 0 := by cases a <;> rfl

theorem getLastD_eq {a : List ℝ} (h : a ≠ []) : a.getLastD 0 = a.getD (a.length - 1) 0 := by
  rw [List.getLastD_eq_getLast?, List.getLast?_eq_getElem?, List.getD_eq_getElem?_getD]

/-- The cell contains the coordinate. -/
theorem cell_spec {a : List ℝ} (h2 : 2 ≤ a.length) (h : a.Pairwise (· < ·)) {t : ℝ} (h0 : a.headD 0 ≤ t) (h1 : t ≤ a.getLastD 0) :
    cell a t + 1 < a.length ∧ a.getD (cell a t) 0 ≤ t ∧ t ≤ a.getD (cell a t + 1) 0 := by
  rw [headD_eq] at h0
  rw [getLastD_eq (by rintro rfl; simp at h2)] at h1
  have hc := count_lt h t
  unfold cell
  generalize (a.filter fun v => decide (v < t)).length = c at hc
  have hlast : c ≤ a.length - 1 := by
    by_contra hh
    have := (hc (a.length - 1) (by omega)).2 (by omega)
    linarith
  have hm : min (c - 1) (a.length - 2) = c - 1 := by omega
  rw [hm]
  refine ⟨by omega, ?_, ?_⟩
  · rcases Nat.eq_zero_or_pos c with rfl | hpos
    · simpa using h0
    · exact ((hc (c - 1) (by omega)).2 (by omega)).le
  · rcases Nat.eq_zero_or_pos c with rfl | hpos
    · have := mt (hc 0 (by omega)).1 (by omega)
      exact (not_lt.1 this).trans (getD_le h (by omega) (by omega))
    · have e : c - 1 + 1 = c := by omega
      rw [e]
      exact not_lt.1 (mt (hc c (by omega)).1 (by omega))

/-- Linear interpolation along the first axis, in any cell that contains the coordinate. -/
theorem interp_cell {a : List ℝ} (h2 : 2 ≤ a.length) (h : a.Pairwise (· < ·)) (as : List (List ℝ)) (f : List ℕ → ℝ) {t : ℝ} (ts : List ℝ)
    {i : ℕ} (hi : i + 1 < a.length) (h0 : a.getD i 0 ≤ t) (h1 : t ≤ a.getD (i + 1) 0) :
    interp (a :: as) f (t :: ts) =
      (1 - (t - a.getD i 0) / (a.getD (i + 1) 0 - a.getD i 0)) * interp as (fun k => f (i :: k)) ts +
      (t - a.getD i 0) / (a.getD (i + 1) 0 - a.getD i 0) * interp as (fun k => f ((i + 1) :: k)) ts := by
  have hb0 : a.headD 0 ≤ t := by rw [headD_eq]; exact (getD_le h (by omega) (by omega)).trans h0
  have hb1 : t ≤ a.getLastD 0 := by
    rw [getLastD_eq (by rintro rfl; simp at h2)]
    exact h1.trans (getD_le h (by omega) (by omega))
  obtain ⟨c1, c2, c3⟩ := cell_spec h2 h hb0 hb1
  rw [interp]
  generalize cell a t = j at c1 c2 c3
  rcases lt_trichotomy i j with hij | rfl | hij
  · -- `t` is the right end of cell `i`
    have e1 : j = i + 1 := by
      by_contra hne
      have := getD_lt h (show i + 1 < j by omega) (by omega)
      linarith
    subst e1
    have e2 : t = a.getD (i + 1) 0 := le_antisymm h1 c2
    have hp : a.getD (i + 1) 0 - a.getD i 0 ≠ 0 := by have := getD_lt h (show i < i + 1 by omega) hi; linarith
    rw [e2, div_self hp]; simp
  · rfl
  · have e1 : i = j + 1 := by
      by_contra hne
      have := getD_lt h (show j + 1 < i by omega) (by omega)
      linarith
    subst e1
    have e2 : t = a.getD (j + 1) 0 := le_antisymm c3 h0
    have hp : a.getD (j + 1) 0 - a.getD j 0 ≠ 0 := by have := getD_lt h (show j < j + 1 by omega) c1; linarith
    rw [e2, div_self hp]; simp

theorem interp_grid {xi : List (List ℝ)} (h : ∀ x ∈ xi, 2 ≤ x.length ∧ x.Pairwise (· < ·)) {k : List ℕ}
    (hk : IsIndex (xi.map List.length) k) (f : List ℕ → ℝ) : interp xi f (gridPoint xi k) = f k := by
  induction xi generalizing k f with
  | nil => cases hk; rfl
  | cons a as ih =>
    cases hk with
    | cons h1 hk' =>
      rename_i i is
      obtain ⟨h2, h3⟩ := h a (by simp)
      have ih' := fun f => ih (fun x hx => h x (by simp [hx])) hk' f
      rw [gridPoint]
      have hi : i < a.length := h1
      by_cases hlast : i + 1 < a.length
      · rw [interp_cell h2 h3 as f _ hlast (le_refl _) (getD_lt h3 (by omega) hlast).le, ih']
        simp
      · have e : i = (i - 1) + 1 := by omega
        have hh : (i - 1) + 1 < a.length := by omega
        have hlt := getD_lt h3 (show i - 1 < i - 1 + 1 by omega) hh
        have hp : a.getD (i - 1 + 1) 0 - a.getD (i - 1) 0 ≠ 0 := by linarith
        rw [e, interp_cell h2 h3 as f _ hh hlt.le (le_refl _), div_self hp, ih', ih']
        simp

theorem inside_grid {xi : List (List ℝ)} (h : ∀ x ∈ xi, 2 ≤ x.length ∧ x.Pairwise (· < ·)) {k : List ℕ}
    (hk : IsIndex (xi.map List.length) k) : inside xi (gridPoint xi k) ∧ (gridPoint xi k).length = xi.length := by
  unfold inside
  induction xi generalizing k with
  | nil => cases hk; exact ⟨.nil, rfl⟩
  | cons a as ih =>
    cases hk with
    | cons h1 hk' =>
      obtain ⟨h2, h3⟩ := h a (by simp)
      obtain ⟨i1, i2⟩ := ih (fun x hx => h x (by simp [hx])) hk'
      rw [gridPoint]
      refine ⟨.cons ⟨?_, ?_⟩ i1, by simp [i2]⟩
      · rw [headD_eq]; exact getD_le h3 (by omega) h1
      · rw [getLastD_eq (by rintro rfl; simp at h2)]; exact getD_le h3 (by omega) (by omega)

theorem interp_bounds {xi : List (List ℝ)} (h : ∀ x ∈ xi, 2 ≤ x.length ∧ x.Pairwise (· < ·)) {x : List ℝ} (hx : inside xi x) :
    ∃ i : List ℕ, List.Forall₂ (fun (e : List ℝ × ℝ) j => j + 1 < e.1.length ∧ e.1.getD j 0 ≤ e.2 ∧ e.2 ≤ e.1.getD (j + 1) 0) (xi.zip x) i ∧
      ∀ (f : List ℕ → ℝ) (lo hi : ℝ), (∀ c, List.Forall₂ (fun j c => c = j ∨ c = j + 1) i c → lo ≤ f c ∧ f c ≤ hi) →
        lo ≤ interp xi f x ∧ interp xi f x ≤ hi := by
  unfold inside at hx
  induction hx with
  | nil => exact ⟨[], .nil, fun f lo hi hf => hf [] .nil⟩
  | @cons a t as ts h1 h2 ih =>
    obtain ⟨g1, g2⟩ := h a (by simp)
    obtain ⟨i, i1, i2⟩ := ih fun x hx => h x (by simp [hx])
    obtain ⟨c1, c2, c3⟩ := cell_spec g1 g2 h1.1 h1.2
    refine ⟨cell a t :: i, .cons ⟨c1, c2, c3⟩ i1, fun f lo hi hf => ?_⟩
    rw [interp_cell g1 g2 as f ts c1 c2 c3]
    obtain ⟨p1, p2⟩ := i2 (fun k => f (cell a t :: k)) lo hi fun c hc => hf _ (.cons (Or.inl rfl) hc)
    obtain ⟨q1, q2⟩ := i2 (fun k => f ((cell a t + 1) :: k)) lo hi fun c hc => hf _ (.cons (Or.inr rfl) hc)
    have hpos : 0 < a.getD (cell a t + 1) 0 - a.getD (cell a t) 0 := by
      have := getD_lt g2 (show cell a t < cell a t + 1 by omega) c1; linarith
    have hw0 : 0 ≤ (t - a.getD (cell a t) 0) / (a.getD (cell a t + 1) 0 - a.getD (cell a t) 0) := div_nonneg (by linarith) hpos.le
    have hw1 : (t - a.getD (cell a t) 0) / (a.getD (cell a t + 1) 0 - a.getD (cell a t) 0) ≤ 1 := by
      rw [div_le_one hpos]; linarith
    generalize (t - a.getD (cell a t) 0) / (a.getD (cell a t + 1) 0 - a.getD (cell a t) 0) = w at hw0 hw1
    constructor
    · nlinarith [mul_le_mul_of_nonneg_left p1 (by linarith : 0 ≤ 1 - w), mul_le_mul_of_nonneg_left q1 hw0]
    · nlinarith [mul_le_mul_of_nonneg_left p2 (by linarith : 0 ≤ 1 - w), mul_le_mul_of_nonneg_left q2 hw0]

theorem interp_affine (preA : List (List ℝ)) (pre : List ℝ) (hpre : preA.length = pre.length) (a : List ℝ) (as : List (List ℝ)) (ts : List ℝ)
    (h2 : 2 ≤ a.length) (h : a.Pairwise (· < ·)) {i : ℕ} (hi : i + 1 < a.length) {t t' s : ℝ}
    (ht : a.getD i 0 ≤ t ∧ t ≤ a.getD (i + 1) 0) (ht' : a.getD i 0 ≤ t' ∧ t' ≤ a.getD (i + 1) 0) (hs : 0 ≤ s ∧ s ≤ 1) (f : List ℕ → ℝ) :
    interp (preA ++ a :: as) f (pre ++ ((1 - s) * t + s * t') :: ts) =
      (1 - s) * interp (preA ++ a :: as) f (pre ++ t :: ts) + s * interp (preA ++ a :: as) f (pre ++ t' :: ts) := by
  induction preA generalizing pre f with
  | nil =>
    cases pre with
    | nil =>
      simp only [List.nil_append]
      have hlo : a.getD i 0 ≤ (1 - s) * t + s * t' := by nlinarith [ht.1, ht'.1, hs.1, hs.2]
      have hhi : (1 - s) * t + s * t' ≤ a.getD (i + 1) 0 := by nlinarith [ht.2, ht'.2, hs.1, hs.2]
      rw [interp_cell h2 h as f ts hi ht.1 ht.2, interp_cell h2 h as f ts hi ht'.1 ht'.2, interp_cell h2 h as f ts hi hlo hhi]
      have hp : a.getD (i + 1) 0 - a.getD i 0 ≠ 0 := by have := getD_lt h (show i < i + 1 by omega) hi; linarith
      field_simp
      ring
    | cons p pre => simp at hpre
  | cons b preA ih =>
    cases pre with
    | nil => simp at hpre
    | cons p pre =>
      simp only [List.cons_append, interp]
      rw [ih pre (by simpa using hpre), ih pre (by simpa using hpre)]
      ring

theorem gap_pos {x : List ℝ} (h : 2 ≤ x.length ∧ x.Pairwise (· < ·)) : 0 < gap x := by
  unfold gap
  have := getD_lt h.2 (show 0 < 1 by omega) (by omega)
  linarith

theorem binVolume_pos {d : MNum} (h : IsGrid d.xi) : 0 < d.binVolume := by
  unfold MNum.binVolume
  refine List.prod_pos ?_
  intro v hv
  rw [List.mem_map] at hv
  obtain ⟨x, hx, rfl⟩ := hv
  exact gap_pos (h.2 x hx)

theorem total_pos {d : MNum} (h : IsDensity d) : 0 < d.total := by
  unfold MNum.total
  obtain ⟨h1, k, hk, hpos⟩ := h
  have hnn : ∀ v ∈ (indices d.shape).map d.y, 0 ≤ v := by
    intro v hv
    rw [List.mem_map] at hv
    obtain ⟨k, hk, rfl⟩ := hv
    exact h1 k (mem_indices.1 hk)
  exact lt_of_lt_of_le hpos (List.single_le_sum hnn _ (List.mem_map.2 ⟨k, mem_indices.2 hk, rfl⟩))

/-! ## Theorems -/

/-- **C149 (normalisation)** The tabulated PDF is non-negative, proportional to the given values, and its sum over the grid times
the volume of a cell is one. -/
theorem C149_normalised (d : MNum) (hg : IsGrid d.xi) (hd : IsDensity d) :
    (∀ k, IsIndex d.shape k → 0 ≤ d.yNorm k) ∧ (∃ c, 0 < c ∧ ∀ k, d.yNorm k = c * d.y k) ∧
    ((indices d.shape).map d.yNorm).sum * d.binVolume = 1 ∧ d.binVolume = (d.xi.map fun x => x.getD 1 0 - x.getD 0 0).prod ∧ 0 < d.binVolume ∧
    (∀ k, k ∈ indices d.shape ↔ IsIndex d.shape k) ∧ (indices d.shape).Nodup := by
  have hv := binVolume_pos hg
  have ht := total_pos hd
  have hc : ∀ k, d.yNorm k = (1 / d.total / d.binVolume) * d.y k := fun k => by unfold MNum.yNorm; ring
  refine ⟨fun k hk => ?_, ⟨1 / d.total / d.binVolume, by positivity, hc⟩, ?_, rfl, hv, fun k => mem_indices, nodup_indices _⟩
  · have := hd.1 k hk
    unfold MNum.yNorm; positivity
  · have : (indices d.shape).map d.yNorm = (indices d.shape).map fun k => (1 / d.total / d.binVolume) * d.y k :=
      List.map_congr_left fun k _ => hc k
    rw [this, List.sum_map_mul_left]
    have : ((indices d.shape).map d.y).sum = d.total := rfl
    rw [this]
    field_simp

/-- **C149 (log-PDF on the grid)** At a point of the grid the log-PDF is the logarithm of the normalised value there; where the value
is zero it is the finite number -1e100. -/
theorem C149_logpdf_grid (d : MNum) (hg : IsGrid d.xi) (hd : IsDensity d) (k : List ℕ) (hk : IsIndex d.shape k) :
    (0 < d.y k → d.logpdf (gridPoint d.xi k) = .ok ((Real.log (d.y k / (d.total * d.binVolume)) : ℝ) : LogP)) ∧
    (d.y k = 0 → d.logpdf (gridPoint d.xi k) = .ok ((-10 ^ 100 : ℝ) : LogP)) := by
  obtain ⟨h1, h2⟩ := inside_grid hg.2 hk
  have hv := binVolume_pos hg
  have ht := total_pos hd
  have key : d.logpdf (gridPoint d.xi k) = .ok ((d.logTab k : ℝ) : LogP) := by
    unfold MNum.logpdf
    rw [if_neg (by rw [h2]; simp), if_pos h1, interp_grid hg.2 hk]
  rw [key]
  constructor
  · intro hy
    unfold MNum.logTab MNum.yNorm
    rw [if_neg (by positivity), div_div]
  · intro hy
    unfold MNum.logTab MNum.yNorm
    rw [hy]; simp

/-- **C149 (log-PDF outside)** Outside of the grid the log-PDF is minus infinity; a point with the wrong number of coordinates is
refused. -/
theorem C149_logpdf_outside (d : MNum) (x : List ℝ) :
    (x.length = d.xi.length → (∃ (i : ℕ) (a : List ℝ) (t : ℝ), d.xi[i]? = some a ∧ x[i]? = some t ∧ (t < a.headD 0 ∨ a.getLastD 0 < t)) →
      d.logpdf x = .ok ⊥) ∧
    (x.length ≠ d.xi.length → d.logpdf x = .error .valueError) := by
  constructor
  · rintro hl ⟨i, a, t, ha, ht, hlt⟩
    unfold MNum.logpdf
    rw [if_neg (by rw [hl]; simp), if_neg]
    intro hin
    obtain ⟨ha', ha⟩ := List.getElem?_eq_some_iff.1 ha
    obtain ⟨ht', ht⟩ := List.getElem?_eq_some_iff.1 ht
    have := (List.forall₂_iff_get.1 hin).2 i ha' ht'
    simp only [List.get_eq_getElem, ha, ht] at this
    rcases hlt with h | h <;> linarith
  · intro h
    unfold MNum.logpdf
    rw [if_pos h]

/-- **C149 (log-PDF between grid points)** Inside of the grid the log-PDF is finite and lies between the smallest and the largest
value at the corners of a cell that contains the point. -/
theorem C149_logpdf_inside (d : MNum) (hg : IsGrid d.xi) (x : List ℝ)
    (hx : List.Forall₂ (fun a t => a.headD 0 ≤ t ∧ t ≤ a.getLastD 0) d.xi x) :
    ∃ v : ℝ, d.logpdf x = .ok (v : LogP) ∧
      ∃ i : List ℕ, List.Forall₂ (fun (e : List ℝ × ℝ) j => j + 1 < e.1.length ∧ e.1.getD j 0 ≤ e.2 ∧ e.2 ≤ e.1.getD (j + 1) 0) (d.xi.zip x) i ∧
        ∀ lo hi : ℝ, (∀ c, List.Forall₂ (fun j c => c = j ∨ c = j + 1) i c →
          ∃ u : ℝ, d.logpdf (gridPoint d.xi c) = .ok (u : LogP) ∧ lo ≤ u ∧ u ≤ hi) → lo ≤ v ∧ v ≤ hi := by
  refine ⟨interp d.xi d.logTab x, ?_, ?_⟩
  · unfold MNum.logpdf
    rw [if_neg (by rw [hx.length_eq]; simp), if_pos (show inside d.xi x from hx)]
  · obtain ⟨i, h1, h2⟩ := interp_bounds hg.2 hx
    refine ⟨i, h1, fun lo hi hc => h2 _ lo hi fun c hcc => ?_⟩
    obtain ⟨u, hu, hlo, hhi⟩ := hc c hcc
    have hidx : IsIndex d.shape c := by
      unfold IsIndex MNum.shape
      have hlen := hx.length_eq
      have hz : d.xi = (d.xi.zip x).map Prod.fst := (List.map_fst_zip hlen.le).symm
      rw [hz]
      clear hz hu hlo hhi hc h2 hx hg hlen
      generalize d.xi.zip x = z at h1
      rw [List.map_map]
      induction h1 generalizing c with
      | nil => cases hcc; exact .nil
      | cons g1 g2 ih =>
        cases hcc with
        | cons e1 e2 =>
          refine .cons ?_ (ih _ e2)
          simp only [Function.comp]
          rcases e1 with rfl | rfl <;> omega
    obtain ⟨i1, i2⟩ := inside_grid hg.2 hidx
    unfold MNum.logpdf at hu
    rw [if_neg (by rw [i2]; simp), if_pos i1, interp_grid hg.2 hidx] at hu
    injection hu with hu
    have : d.logTab c = u := WithBot.coe_injective hu
    rw [this]
    exact ⟨hlo, hhi⟩

/-- **C149 (linear interpolation)** Along each axis, between two neighbouring grid values, the log-PDF is an affine function of the
coordinate. -/
theorem C149_logpdf_affine (d : MNum) (hg : IsGrid d.xi) (preA : List (List ℝ)) (a : List ℝ) (as : List (List ℝ)) (hxi : d.xi = preA ++ a :: as)
    (pre ts : List ℝ) (i : ℕ) (hi : i + 1 < a.length) (t t' s : ℝ) (hs : 0 ≤ s ∧ s ≤ 1)
    (ht : a.getD i 0 ≤ t ∧ t ≤ a.getD (i + 1) 0) (ht' : a.getD i 0 ≤ t' ∧ t' ≤ a.getD (i + 1) 0)
    (hx : List.Forall₂ (fun a t => a.headD 0 ≤ t ∧ t ≤ a.getLastD 0) preA pre)
    (hx' : List.Forall₂ (fun a t => a.headD 0 ≤ t ∧ t ≤ a.getLastD 0) as ts) :
    ∃ u v : ℝ, d.logpdf (pre ++ t :: ts) = .ok (u : LogP) ∧ d.logpdf (pre ++ t' :: ts) = .ok (v : LogP) ∧
      d.logpdf (pre ++ ((1 - s) * t + s * t') :: ts) = .ok ((((1 - s) * u + s * v : ℝ)) : LogP) := by
  obtain ⟨g1, g2⟩ := hg.2 a (by rw [hxi]; simp)
  have hin : ∀ t, a.getD i 0 ≤ t → t ≤ a.getD (i + 1) 0 → d.logpdf (pre ++ t :: ts) = .ok ((interp d.xi d.logTab (pre ++ t :: ts) : ℝ) : LogP) := by
    intro t h0 h1
    have hh : inside d.xi (pre ++ t :: ts) := by
      unfold inside
      rw [hxi]
      refine List.rel_append hx (.cons ⟨?_, ?_⟩ hx')
      · rw [headD_eq]; exact (getD_le g2 (by omega) (by omega)).trans h0
      · rw [getLastD_eq (by rintro rfl; simp at g1)]; exact h1.trans (getD_le g2 (by omega) (by omega))
    unfold MNum.logpdf
    rw [if_neg (by rw [hh.length_eq]; simp), if_pos hh]
  refine ⟨_, _, hin t ht.1 ht.2, hin t' ht'.1 ht'.2, ?_⟩
  rw [hin _ (by nlinarith [ht.1, ht'.1, hs.1, hs.2]) (by nlinarith [ht.2, ht'.2, hs.1, hs.2]), hxi,
    interp_affine preA pre hx.length_eq a as ts g1 g2 hi ht ht' hs]

end Verif.Grid
