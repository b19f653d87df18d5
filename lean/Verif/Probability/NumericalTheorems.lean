import Verif.Probability.Numerical
/-!
# C43, C71: numerical distributions
-/
set_option linter.unusedSectionVars false
set_option linter.unusedSimpArgs false
set_option linter.unusedVariables false
namespace Verif.Probability
open Verif.Py

variable {K : Type} [Field K] [LinearOrder K] [IsStrictOrderedRing K]

/-! ## Specification -/

/-- A PDF table as documented: strictly ascending abscissae, one non-negative value for each, and at
least one of them (not counting the last) positive. (Specification.) -/
structure Grid (x y : List K) : Prop where
  asc : x.Pairwise (· < ·)
  len : y.length = x.length
  nonneg : ∀ v ∈ y, 0 ≤ v
  pos : ∃ v ∈ y.dropLast, 0 < v

/-! ## Lemmas on the helpers -/

theorem diff_length (x : List K) : (diff x).length = x.length - 1 := by
  induction x with
  | nil => rfl
  | cons a r ih =>
    cases r with
    | nil => rfl
    | cons b r => simp [diff, ih]

theorem diff_pos {x : List K} (h : x.Pairwise (· < ·)) : ∀ v ∈ diff x, 0 < v := by
  induction x with
  | nil => intro v hv; cases hv
  | cons a r ih =>
    cases r with
    | nil => intro v hv; cases hv
    | cons b r =>
      intro v hv
      rcases List.mem_cons.1 hv with rfl | hv
      · have := (List.pairwise_cons.1 h).1 b (by simp)
        linarith
      · exact ih (List.pairwise_cons.1 h).2 v hv

theorem cumsumFrom_length (s : K) (l : List K) : (cumsumFrom s l).length = l.length := by
  induction l generalizing s with
  | nil => rfl
  | cons a r ih => simp [cumsumFrom, ih]

theorem cumsumFrom_ge {s : K} {l : List K} (h : ∀ v ∈ l, 0 ≤ v) : ∀ v ∈ cumsumFrom s l, s ≤ v := by
  induction l generalizing s with
  | nil => intro v hv; cases hv
  | cons a r ih =>
    intro v hv
    have ha := h a (by simp)
    rcases List.mem_cons.1 hv with rfl | hv
    · linarith
    · have := ih (s := s + a) (fun v hv => h v (by simp [hv])) v hv
      linarith

theorem cumsumFrom_pairwise {s : K} {l : List K} (h : ∀ v ∈ l, 0 ≤ v) :
    (s :: cumsumFrom s l).Pairwise (· ≤ ·) := by
  induction l generalizing s with
  | nil => simp [cumsumFrom]
  | cons a r ih =>
    exact List.pairwise_cons.2 ⟨cumsumFrom_ge h, ih fun v hv => h v (by simp [hv])⟩

theorem cumsumFrom_last (s : K) (l : List K) :
    (s :: cumsumFrom s l).getLast (by simp) = s + l.sum := by
  induction l generalizing s with
  | nil => simp [cumsumFrom]
  | cons a r ih =>
    simp only [cumsumFrom]
    rw [List.getLast_cons (by simp), ih, List.sum_cons]; ring

theorem sum_nonneg' {l : List K} (h : ∀ v ∈ l, 0 ≤ v) : 0 ≤ l.sum := by
  induction l with
  | nil => simp
  | cons a r ih =>
    rw [List.sum_cons]
    exact add_nonneg (h a (by simp)) (ih fun v hv => h v (by simp [hv]))

theorem sum_pos' {l : List K} (h : ∀ v ∈ l, 0 ≤ v) (hp : ∃ v ∈ l, 0 < v) : 0 < l.sum := by
  induction l with
  | nil => obtain ⟨v, hv, _⟩ := hp; cases hv
  | cons a r ih =>
    rw [List.sum_cons]
    obtain ⟨v, hv, hpos⟩ := hp
    rcases List.mem_cons.1 hv with rfl | hv
    · exact add_pos_of_pos_of_nonneg hpos (sum_nonneg' fun v hv => h v (by simp [hv]))
    · exact add_pos_of_nonneg_of_pos (h a (by simp)) (ih (fun v hv => h v (by simp [hv])) ⟨v, hv, hpos⟩)

theorem zipWith_mul_pos {y d : List K} (hy : ∀ v ∈ y, 0 ≤ v) (hd : ∀ v ∈ d, 0 < v)
    (hl : y.length ≤ d.length) (hp : ∃ v ∈ y, 0 < v) :
    ∃ v ∈ List.zipWith (· * ·) y d, 0 < v := by
  induction y generalizing d with
  | nil => obtain ⟨v, hv, _⟩ := hp; cases hv
  | cons a r ih =>
    cases d with
    | nil => simp at hl
    | cons b d =>
      obtain ⟨v, hv, hpos⟩ := hp
      rcases List.mem_cons.1 hv with rfl | hv
      · exact ⟨v * b, by simp, mul_pos hpos (hd b (by simp))⟩
      · obtain ⟨w, hw, hwp⟩ := ih (d := d) (fun v hv => hy v (by simp [hv])) (fun v hv => hd v (by simp [hv]))
          (by simpa using hl) ⟨v, hv, hpos⟩
        exact ⟨w, by simp [hw], hwp⟩

theorem zipWith_mul_nonneg {y d : List K} (hy : ∀ v ∈ y, 0 ≤ v) (hd : ∀ v ∈ d, 0 < v) :
    ∀ v ∈ List.zipWith (· * ·) y d, 0 ≤ v := by
  induction y generalizing d with
  | nil => intro v hv; simp at hv
  | cons a r ih =>
    cases d with
    | nil => intro v hv; simp at hv
    | cons b d =>
      intro v hv
      rw [List.zipWith_cons_cons] at hv
      rcases List.mem_cons.1 hv with rfl | hv
      · exact mul_nonneg (hy a (by simp)) (hd b (by simp)).le
      · exact ih (fun v hv => hy v (by simp [hv])) (fun v hv => hd v (by simp [hv])) v hv

/-- Twice the trapezoidal sum dominates the left Riemann sum. -/
theorem trapz_ge {y x : List K} (hx : x.Pairwise (· < ·)) (hl : y.length = x.length)
    (hy : ∀ v ∈ y, 0 ≤ v) :
    (List.zipWith (· * ·) y.dropLast (diff x)).sum ≤ 2 * trapz y x := by
  induction y generalizing x with
  | nil => cases x with
    | nil => simp [trapz]
    | cons => simp at hl
  | cons a r ih =>
    cases x with
    | nil => simp at hl
    | cons u x =>
      cases r with
      | nil => cases x with
        | nil => simp [trapz, diff]
        | cons => simp at hl
      | cons b r =>
        cases x with
        | nil => simp at hl
        | cons v x =>
          have h1 := ih (x := v :: x) (List.pairwise_cons.1 hx).2 (by simpa using hl)
            (fun w hw => hy w (by simp [hw]))
          have h2 : u < v := (List.pairwise_cons.1 hx).1 v (by simp)
          have hb : 0 ≤ b := hy b (by simp)
          rw [List.dropLast_cons_cons]
          simp only [diff, trapz, List.zipWith_cons_cons, List.sum_cons] at h1 ⊢
          have : 0 ≤ (v - u) * b := mul_nonneg (by linarith) hb
          nlinarith [this]

theorem trapz_pos {x y : List K} (g : Grid x y) : 0 < trapz y x := by
  have h1 := trapz_ge g.asc g.len g.nonneg
  have hd := diff_pos g.asc
  have hy : ∀ v ∈ y.dropLast, 0 ≤ v := fun v hv => g.nonneg v (List.dropLast_subset _ hv)
  have h2 := sum_pos' (zipWith_mul_nonneg hy hd)
    (zipWith_mul_pos hy hd (by simp [diff_length, g.len]) g.pos)
  linarith

theorem trapz_map_div (y x : List K) (c : K) : trapz (y.map (· / c)) x = trapz y x / c := by
  induction y generalizing x with
  | nil => simp [trapz]
  | cons a r ih =>
    cases r with
    | nil => simp [trapz]
    | cons b r =>
      cases x with
      | nil => simp [trapz]
      | cons u x =>
        cases x with
        | nil => simp [trapz]
        | cons v x =>
          have := ih (v :: x)
          simp only [List.map_cons, trapz] at this ⊢
          rw [this]; ring

theorem normalise_eq {x y : List K} (g : Grid x y) : normalise x y = y.map (· / trapz y x) := by
  unfold normalise
  refine List.map_congr_left fun v hv => ?_
  rw [if_neg (not_lt.2 (div_nonneg (g.nonneg v hv) (trapz_pos g).le))]

theorem normalise_grid {x y : List K} (g : Grid x y) : Grid x (normalise x y) := by
  rw [normalise_eq g]
  refine ⟨g.asc, by simp [g.len], ?_, ?_⟩
  · intro v hv
    obtain ⟨w, hw, rfl⟩ := List.mem_map.1 hv
    exact div_nonneg (g.nonneg w hw) (trapz_pos g).le
  · obtain ⟨v, hv, hp⟩ := g.pos
    refine ⟨v / trapz y x, ?_, div_pos hp (trapz_pos g)⟩
    rw [← List.map_dropLast]
    exact List.mem_map.2 ⟨v, hv, rfl⟩

theorem Grid.two_le {x y : List K} (g : Grid x y) : 2 ≤ x.length := by
  obtain ⟨v, hv, _⟩ := g.pos
  have : 0 < y.dropLast.length := List.length_pos_of_mem hv
  rw [List.length_dropLast, g.len] at this
  omega

/-- The table of the CDF: as long as `x`, from 0 to 1, non-decreasing. -/
theorem cdfTable_spec {x yn : List K} (g : Grid x yn) :
    (cdfTable x yn).length = x.length ∧ (cdfTable x yn).head? = some 0 ∧
    (cdfTable x yn).getLast? = some 1 ∧ (cdfTable x yn).Pairwise (· ≤ ·) := by
  have hy : ∀ v ∈ yn.dropLast, 0 ≤ v := fun v hv => g.nonneg v (List.dropLast_subset _ hv)
  have hd := diff_pos g.asc
  have hpos := sum_pos' (zipWith_mul_nonneg hy hd)
    (zipWith_mul_pos hy hd (by simp [diff_length, g.len]) g.pos)
  have h2 := g.two_le
  have hlast := cumsumFrom_last 0 (List.zipWith (· * ·) yn.dropLast (diff x))
  rw [zero_add] at hlast
  refine ⟨?_, ?_, ?_, ?_⟩
  · simp only [cdfTable, List.length_map, List.length_cons, cumsumFrom_length, List.length_zipWith,
      List.length_dropLast, diff_length, g.len]
    omega
  · simp [cdfTable]
  · unfold cdfTable
    simp only [List.getLast?_map]
    rw [List.getLast?_eq_some_getLast (by simp), hlast]
    simp only [Option.map_some]
    rw [div_self (ne_of_gt hpos)]
  · unfold cdfTable
    simp only
    rw [hlast]
    refine List.Pairwise.map _ (fun a b hab => ?_) (cumsumFrom_pairwise (zipWith_mul_nonneg hy hd))
    exact div_le_div_of_nonneg_right hab hpos.le

theorem zip_tab {x c : List K} (hx : x.Pairwise (· < ·)) (hc : c.Pairwise (· ≤ ·))
    : Tab (x.zip c) := by
  induction x generalizing c with
  | nil => simp [Tab]
  | cons a r ih =>
    cases c with
    | nil => simp [Tab]
    | cons b c =>
      rw [List.zip_cons_cons]
      refine List.pairwise_cons.2 ⟨fun q hq => ?_, ih (List.pairwise_cons.1 hx).2 (List.pairwise_cons.1 hc).2⟩
      exact ⟨(List.pairwise_cons.1 hx).1 _ (List.of_mem_zip hq).1,
        (List.pairwise_cons.1 hc).1 _ (List.of_mem_zip hq).2⟩

/-! ## What a constructed distribution looks like -/

theorem mk'_ok {x y : List K} {c : Option K} {d : Num K} (h : Num.mk' x y c = .ok d) :
    d.x = x ∧ d.y = y ∧ d.yNorm = normalise x y ∧ d.cdfTab = cdfTable x (normalise x y) ∧
    (∃ x0 r, ∃ hx : x = x0 :: r, d.support = (x0, (x0 :: r).getLast (by simp))) ∧ y.length = x.length := by
  unfold Num.mk' at h
  obtain ⟨c', hc, h⟩ := bind_eq_ok h
  cases x with
  | nil => cases h
  | cons x0 r =>
    simp only [finishNum] at h
    split at h
    · cases h
    · rename_i hl
      injection h with h
      subst h
      exact ⟨rfl, rfl, rfl, rfl, ⟨x0, r, rfl, rfl⟩, not_not.1 hl⟩

theorem interp1d_ok {a : K × K} {l : List (K × K)} {t : K} (h1 : a.1 ≤ t)
    (h2 : t ≤ ((a :: l).getLast (by simp)).1) : interp1d (a :: l) t = .ok (interpFrom a l t) := by
  simp only [interp1d]
  rw [if_neg]
  rintro (h | h)
  · exact absurd h (not_lt.2 h1)
  · exact absurd h (not_lt.2 h2)

theorem zip_getLast {x c : List K} (hx : x ≠ []) (hl : c.length = x.length)
    (hz : x.zip c ≠ []) :
    (x.zip c).getLast hz = (x.getLast hx, c.getLast (by rintro rfl; exact hx (List.length_eq_zero_iff.1 hl.symm))) := by
  induction x generalizing c with
  | nil => exact absurd rfl hx
  | cons a r ih =>
    cases c with
    | nil => simp at hl
    | cons b c =>
      cases r with
      | nil => cases c with
        | nil => rfl
        | cons => simp at hl
      | cons a' r =>
        cases c with
        | nil => simp at hl
        | cons b' c =>
          have := ih (c := b' :: c) (by simp) (by simpa using hl) (by simp)
          simp only [List.zip_cons_cons] at this ⊢
          rw [List.getLast_cons (by simp), this]
          rfl

theorem zip_swap' (r c : List K) : c.zip r = (r.zip c).map Prod.swap := by
  induction r generalizing c with
  | nil => simp
  | cons a r ih => cases c with
    | nil => simp
    | cons b c => simp [ih]

/-- Shape of the tables of a distribution built on a proper grid. -/
theorem tables {x y : List K} {c : Option K} {d : Num K} (g : Grid x y) (h : Num.mk' x y c = .ok d) :
    ∃ (x0 : K) (l : List (K × K)), Tab ((x0, 0) :: l) ∧ ((x0, (0 : K)) :: l).getLast (by simp) = (d.support.2, 1) ∧
      d.support.1 = x0 ∧ d.x.zip d.cdfTab = (x0, 0) :: l ∧
      d.cdfTab.zip d.x = (0, x0) :: l.map Prod.swap := by
  obtain ⟨h1, h2, h3, h4, ⟨x0, r, hx, h5⟩, h6⟩ := mk'_ok h
  subst hx
  obtain ⟨c1, c2, c3, c4⟩ := cdfTable_spec (normalise_grid g)
  rw [← h4] at c1 c2 c3 c4
  have hc : ∃ cr, d.cdfTab = 0 :: cr := by
    cases hcd : d.cdfTab with
    | nil => rw [hcd] at c2; cases c2
    | cons a b => rw [hcd] at c2; injection c2 with c2; exact ⟨b, by rw [c2]⟩
  obtain ⟨cr, hcr⟩ := hc
  have hz : d.x.zip d.cdfTab = (x0, 0) :: r.zip cr := by rw [h1, hcr]; rfl
  have ht : Tab (d.x.zip d.cdfTab) := by
    rw [h1]
    exact zip_tab g.asc c4
  have hl := zip_getLast (x := x0 :: r) (c := d.cdfTab) (by simp) c1 (by rw [← h1, hz]; simp)
  refine ⟨x0, r.zip cr, by rw [← hz]; exact ht, ?_, by rw [h5], hz, ?_⟩
  · have : d.cdfTab.getLast (by rw [hcr]; simp) = 1 := by
      rw [List.getLast?_eq_some_getLast (by rw [hcr]; simp)] at c3
      injection c3
    have hz' : (x0 :: r).zip d.cdfTab = (x0, 0) :: r.zip cr := by rw [← h1, hz]
    simp only [hz'] at hl
    rw [hl, this, h5]
  · rw [h1, hcr, List.zip_cons_cons]
    congr 1
    exact zip_swap' r cr

/-! ## C43 -/

/-- **C43 (CDF table)** On a proper grid the CDF table has one entry per grid point and rises
monotonically from 0 to 1. -/
theorem C43_cdf_table {x y : List K} {c : Option K} {d : Num K} (g : Grid x y) (h : Num.mk' x y c = .ok d) :
    d.cdfTab.length = x.length ∧ d.cdfTab.head? = some 0 ∧ d.cdfTab.getLast? = some 1 ∧
    d.cdfTab.Pairwise (· ≤ ·) := by
  rw [(mk'_ok h).2.2.2.1]
  exact cdfTable_spec (normalise_grid g)

/-- **C43 (normalisation)** The normalised PDF table has trapezoidal integral 1 and is proportional to
the input. -/
theorem C43_pdf_normalised {x y : List K} {c : Option K} {d : Num K} (g : Grid x y)
    (h : Num.mk' x y c = .ok d) :
    trapz d.yNorm x = 1 ∧ ∃ s, 0 < s ∧ d.yNorm = y.map (s * ·) := by
  rw [(mk'_ok h).2.2.1, normalise_eq g, trapz_map_div, div_self (ne_of_gt (trapz_pos g))]
  refine ⟨rfl, (trapz y x)⁻¹, inv_pos.2 (trapz_pos g), List.map_congr_left fun v _ => ?_⟩
  rw [div_eq_mul_inv, mul_comm]

/-- **C43 (central value given)** A central value is accepted exactly if it is within the range of the
grid, and then it is the central value of the distribution; otherwise `ValueError` is raised. -/
theorem C43_central_given {x y : List K} (g : Grid x y) (c : K) :
    ∃ lo hi, x.head? = some lo ∧ x.getLast? = some hi ∧
      ((lo ≤ c ∧ c ≤ hi) → ∃ d, Num.mk' x y (some c) = .ok d ∧ d.central = c ∧ d.support = (lo, hi)) ∧
      (¬ (lo ≤ c ∧ c ≤ hi) → Num.mk' x y (some c) = .error .valueError) := by
  have h2 := g.two_le
  cases x with
  | nil => simp at h2
  | cons x0 r =>
    refine ⟨x0, (x0 :: r).getLast (by simp), rfl, List.getLast?_eq_some_getLast _, fun hc => ?_, fun hc => ?_⟩
    · have : Num.mk' (x0 :: r) y (some c) = .ok ⟨x0 :: r, y, c, (x0, (x0 :: r).getLast (by simp)),
          normalise (x0 :: r) y, cdfTable (x0 :: r) (normalise (x0 :: r) y)⟩ := by
        unfold Num.mk'
        simp only [chooseCentral, finishNum, if_pos hc, ok_bind_eq]
        rw [if_neg (not_not.2 g.len)]
      exact ⟨_, this, rfl, rfl⟩
    · unfold Num.mk'
      simp only [chooseCentral, if_neg hc, error_bind_eq]

theorem argmaxFrom_spec (best : K) (ibest i : Nat) (l : List K) (pre : List K)
    (hi : i = pre.length) (hb : pre[ibest]? = some best)
    (hmax : ∀ (k : Nat) v, pre[k]? = some v → v ≤ best ∧ (k < ibest → v < best)) :
    ∃ b, (pre ++ l)[argmaxFrom best ibest i l]? = some b ∧
      ∀ (k : Nat) v, (pre ++ l)[k]? = some v → v ≤ b ∧ (k < argmaxFrom best ibest i l → v < b) := by
  induction l generalizing best ibest i pre with
  | nil => exact ⟨best, by simpa [argmaxFrom] using hb, by simpa [argmaxFrom] using hmax⟩
  | cons a r ih =>
    have hib : ibest < pre.length := by
      by_contra hc
      rw [List.getElem?_eq_none (by omega)] at hb; cases hb
    have happ : pre ++ a :: r = (pre ++ [a]) ++ r := by simp
    rw [happ]
    unfold argmaxFrom
    split
    · rename_i hlt
      refine ih a i (i + 1) (pre ++ [a]) (by simp [hi]) (by simp [hi]) ?_
      intro k v hk
      rw [List.getElem?_append] at hk
      split at hk
      · rename_i hkl
        have := (hmax k v hk).1
        exact ⟨by linarith, fun _ => by linarith⟩
      · rename_i hkl
        have : k - pre.length = 0 := by
          by_contra hc
          rw [List.getElem?_eq_none (by simp; omega)] at hk; cases hk
        rw [this] at hk
        injection hk with hk
        subst hk
        exact ⟨le_refl _, fun hlt => by omega⟩
    · rename_i hge
      refine ih best ibest (i + 1) (pre ++ [a]) (by simp [hi])
        (by rw [List.getElem?_append_left hib]; exact hb) ?_
      intro k v hk
      rw [List.getElem?_append] at hk
      split at hk
      · exact hmax k v hk
      · rename_i hkl
        have : k - pre.length = 0 := by
          by_contra hc
          rw [List.getElem?_eq_none (by simp; omega)] at hk; cases hk
        rw [this] at hk
        injection hk with hk
        subst hk
        exact ⟨not_lt.1 hge, fun hlt => by omega⟩

/-- **C43 (default central value)** Without a given central value construction succeeds and the central
value is the first grid point at which the PDF table is largest. -/
theorem C43_central_default {x y : List K} (g : Grid x y) :
    ∃ d k b, Num.mk' x y none = .ok d ∧ x[k]? = some d.central ∧ y[k]? = some b ∧
      ∀ (j : Nat) v, y[j]? = some v → v ≤ b ∧ (j < k → v < b) := by
  have h2 := g.two_le
  have hlen := g.len
  cases y with
  | nil => simp at hlen; omega
  | cons y0 ys =>
    obtain ⟨b, hb, hmax⟩ := argmaxFrom_spec y0 0 1 ys [y0] rfl rfl (by
      intro k v hk
      cases k with
      | zero => injection hk with hk; subst hk; exact ⟨le_refl _, fun h => absurd h (by omega)⟩
      | succ k => simp at hk)
    rw [List.singleton_append] at hb hmax
    generalize hk : argmaxFrom y0 0 1 ys = k at hb hmax
    have hkl : k < x.length := by
      rw [← hlen]
      by_contra hc
      rw [List.getElem?_eq_none (by omega)] at hb; cases hb
    cases x with
    | nil => simp at h2
    | cons x0 r =>
      have : Num.mk' (x0 :: r) (y0 :: ys) none = .ok ⟨x0 :: r, y0 :: ys, (x0 :: r)[k],
          (x0, (x0 :: r).getLast (by simp)), normalise (x0 :: r) (y0 :: ys),
          cdfTable (x0 :: r) (normalise (x0 :: r) (y0 :: ys))⟩ := by
        unfold Num.mk'
        simp only [chooseCentral, finishNum, argmax, hk, ok_bind_eq, List.getElem?_eq_getElem hkl]
        rw [if_neg (not_not.2 hlen)]
      exact ⟨_, k, b, this, List.getElem?_eq_getElem hkl, hb, hmax⟩

/-- **C43 (quantiles)** For every probability `p` in `[0, 1]` the quantile function returns a point of the
support at which the CDF is `p`. -/
theorem C43_cdf_of_ppf {x y : List K} {c : Option K} {d : Num K} (g : Grid x y) (h : Num.mk' x y c = .ok d)
    {p : K} (h0 : 0 ≤ p) (h1 : p ≤ 1) :
    ∃ t, d.ppf p = .ok t ∧ d.support.1 ≤ t ∧ t ≤ d.support.2 ∧ d.cdf t = .ok p := by
  obtain ⟨x0, l, ht, hl, hs, hz, hz'⟩ := tables g h
  have hsw := interpFrom_swap ht (p := p) h0 (by rw [hl]; exact h1)
  rw [hl] at hsw
  obtain ⟨a1, a2, a3⟩ := hsw
  have hlast : (((0 : K), x0) :: l.map Prod.swap).getLast (by simp) = (1, d.support.2) := by
    have e : ((0 : K), x0) :: l.map Prod.swap = ((x0, (0 : K)) :: l).map Prod.swap := rfl
    simp only [e, List.getLast_map, hl]
    rfl
  refine ⟨interpFrom (0, x0) (l.map Prod.swap) p, ?_, by rw [hs]; exact a1, a3, ?_⟩
  · unfold Num.ppf
    rw [hz']
    exact interp1d_ok h0 (by rw [hlast]; exact h1)
  · unfold Num.cdf
    rw [hz]
    exact (interp1d_ok a1 (by rw [hl]; exact a3)).trans (congrArg _ a2)

/-- **C43 (CDF)** The CDF is defined exactly on the support (`ValueError` outside), 0 at the lower end,
1 at the upper end, non-decreasing, with values in `[0, 1]`. -/
theorem C43_cdf {x y : List K} {c : Option K} {d : Num K} (g : Grid x y) (h : Num.mk' x y c = .ok d) :
    d.cdf d.support.1 = .ok 0 ∧ d.cdf d.support.2 = .ok 1 ∧
    (∀ t, ¬ (d.support.1 ≤ t ∧ t ≤ d.support.2) → d.cdf t = .error .valueError) ∧
    (∀ s t, d.support.1 ≤ s → s ≤ t → t ≤ d.support.2 →
      ∃ u v, d.cdf s = .ok u ∧ d.cdf t = .ok v ∧ 0 ≤ u ∧ u ≤ v ∧ v ≤ 1) := by
  obtain ⟨x0, l, ht, hl, hs, hz, hz'⟩ := tables g h
  unfold Num.cdf
  rw [hz, hs]
  have hlast := interpFrom_last ht
  rw [hl] at hlast
  have hle : x0 ≤ d.support.2 := by
    have := List.getLast_mem (l := (x0, (0 : K)) :: l) (by simp)
    rw [hl] at this
    rcases List.mem_cons.1 this with hq | hq
    · injection hq with h1 h2; exact h1 ▸ le_refl _
    · exact ((List.pairwise_cons.1 ht).1 _ hq).1.le
  refine ⟨?_, ?_, ?_, ?_⟩
  · rw [interp1d_ok (le_refl _) (by rw [hl]; exact hle)]
    congr 1
    refine le_antisymm ?_ (interpFrom_ge ht (le_refl _))
    cases l with
    | nil => exact le_refl _
    | cons b r =>
      unfold interpFrom
      rw [if_pos ((List.pairwise_cons.1 ht).1 b (by simp)).1]
      exact (line_left (x0, (0 : K)) b).le
  · rw [interp1d_ok hle (by rw [hl])]
    exact congrArg _ hlast
  · intro t hn
    simp only [interp1d]
    rw [if_pos]
    rw [hl]
    by_contra hc
    rw [not_or] at hc
    exact hn ⟨not_lt.1 hc.1, not_lt.1 hc.2⟩
  · intro s t h1 h2 h3
    refine ⟨_, _, interp1d_ok h1 (by rw [hl]; exact le_trans h2 h3),
      interp1d_ok (le_trans h1 h2) (by rw [hl]; exact h3), interpFrom_ge ht h1, interpFrom_mono ht h1 h2, ?_⟩
    have := interpFrom_mono ht (le_trans h1 h2) h3
    rw [hlast] at this
    exact this

/-! ## C71: the errors of a numerical distribution contain the right probability -/

theorem central_in_support {x y : List K} {c : Option K} {d : Num K} (g : Grid x y)
    (h : Num.mk' x y c = .ok d) : d.support.1 ≤ d.central ∧ d.central ≤ d.support.2 := by
  cases c with
  | some c =>
    obtain ⟨lo, hi, h1, h2, h3, h4⟩ := C43_central_given g c
    by_cases hc : lo ≤ c ∧ c ≤ hi
    · obtain ⟨d', h5, h6, h7⟩ := h3 hc
      rw [h5] at h; injection h with h; subst h
      rw [h6, h7]; exact hc
    · rw [h4 hc] at h; cases h
  | none =>
    obtain ⟨d', k, b, h1, h2, h3, _⟩ := C43_central_default g
    rw [h1] at h; injection h with h; subst h
    obtain ⟨_, _, _, _, ⟨x0, r, hx, h5⟩, _⟩ := mk'_ok h1
    subst hx
    rw [h5]
    have hasc := g.asc
    have hmem : d'.central ∈ x0 :: r := List.mem_of_getElem? h2
    constructor
    · rcases List.mem_cons.1 hmem with he | hm
      · rw [he]
      · exact ((List.pairwise_cons.1 hasc).1 _ hm).le
    · have hp : ∀ (l : List K) (hl : l ≠ []), l.Pairwise (· < ·) → ∀ v ∈ l, v ≤ l.getLast hl := by
        intro l
        induction l with
        | nil => intro hl; exact absurd rfl hl
        | cons a l ih =>
          intro hl hp v hv
          cases l with
          | nil => rcases List.mem_cons.1 hv with rfl | hv
                   · simp
                   · cases hv
          | cons b l =>
            rw [List.getLast_cons (by simp)]
            have hi := ih (by simp) (List.pairwise_cons.1 hp).2
            rcases List.mem_cons.1 hv with rfl | hv
            · exact le_trans ((List.pairwise_cons.1 hp).1 b (by simp)).le (hi b (by simp))
            · exact hi v hv
      exact hp _ _ hasc _ hmem

/-- **C71 (central interval)** For a confidence level `cl` in `[0, 1]`: the left and right errors
(`method='central'`) exist, the interval from `central - left` to `central + right` contains
probability `cl`, and the part of the probability on each side of the central value is in the same
proportion as in the whole distribution. -/
theorem C71_central_interval {x y : List K} {c : Option K} {d : Num K} (g : Grid x y)
    (h : Num.mk' x y c = .ok d) {cl : K} (h0 : 0 ≤ cl) (h1 : cl ≤ 1) :
    ∃ l r u v m, d.errorLeft cl .central = .ok l ∧ d.errorRight cl .central = .ok r ∧
      d.cdf (d.central - l) = .ok u ∧ d.cdf (d.central + r) = .ok v ∧ d.cdf d.central = .ok m ∧
      v - u = cl ∧ m - u = cl * m ∧ v - m = cl * (1 - m) := by
  obtain ⟨hc1, hc2⟩ := central_in_support g h
  obtain ⟨m, m', hm, hm', hm0, _, _⟩ := (C43_cdf g h).2.2.2 _ _ hc1 (le_refl _) hc2
  obtain ⟨m1, _, hm1, hm2, _, hm3, hm4⟩ := (C43_cdf g h).2.2.2 _ _ hc1 hc2 (le_refl _)
  rw [hm] at hm1; injection hm1 with hm1; subst hm1
  have hle : m ≤ 1 := le_trans hm3 hm4
  obtain ⟨s, hs, _, _, hs2⟩ := C43_cdf_of_ppf g h (p := m * (1 - cl))
    (mul_nonneg hm0 (by linarith)) (by nlinarith)
  obtain ⟨t, ht, _, _, ht2⟩ := C43_cdf_of_ppf g h (p := m + (1 - m) * cl)
    (add_nonneg hm0 (mul_nonneg (by linarith) h0)) (by nlinarith)
  refine ⟨d.central - s, t - d.central, m * (1 - cl), m + (1 - m) * cl, m, ?_, ?_, ?_, ?_, hm, by ring, by ring, by ring⟩
  · simp only [Num.errorLeft, hm, ok_bind_eq, hs]
  · simp only [Num.errorRight, hm, ok_bind_eq, ht]
  · rw [sub_sub_cancel]; exact hs2
  · rw [add_sub_cancel]; exact ht2

/-- **C71 (limits)** With `method='limit'` the probability above `central - left` is `cl`, the
probability below `central + right` is `cl`. -/
theorem C71_limits {x y : List K} {c : Option K} {d : Num K} (g : Grid x y)
    (h : Num.mk' x y c = .ok d) {cl : K} (h0 : 0 ≤ cl) (h1 : cl ≤ 1) :
    ∃ l r, d.errorLeft cl .limit = .ok l ∧ d.errorRight cl .limit = .ok r ∧
      d.cdf (d.central - l) = .ok (1 - cl) ∧ d.cdf (d.central + r) = .ok cl := by
  obtain ⟨s, hs, _, _, hs2⟩ := C43_cdf_of_ppf g h (p := 1 - cl) (by linarith) (by linarith)
  obtain ⟨t, ht, _, _, ht2⟩ := C43_cdf_of_ppf g h (p := cl) h0 h1
  refine ⟨d.central - s, t - d.central, ?_, ?_, ?_, ?_⟩
  · simp only [Num.errorLeft, hs, ok_bind_eq]
  · simp only [Num.errorRight, ht, ok_bind_eq]
  · rw [sub_sub_cancel]; exact hs2
  · rw [add_sub_cancel]; exact ht2

/-! ### A concrete grid -/

theorem grid_example : Grid (K := ℚ) [0, 1, 3] [1, 2, 0] :=
  ⟨by decide +kernel, rfl, by decide +kernel, by decide +kernel⟩

/-- CDF table 0, 1/5, 1; mode at 1; median at 7/4. -/
example : ∃ d, Num.mk' (K := ℚ) [0, 1, 3] [1, 2, 0] none = .ok d ∧ d.central = 1 ∧ d.cdfTab = [0, 1 / 5, 1] ∧
    (d.ppf (1 / 2)).toOption = some (7 / 4) := ⟨_, rfl, by decide +kernel, by decide +kernel, by decide +kernel⟩

end Verif.Probability
