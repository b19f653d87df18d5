import Mathlib.Tactic.FieldSimp
import Mathlib.Tactic.NormNum
import Mathlib.Data.Nat.Cast.Order.Field
import Verif.Plots.Density
/-! # Density contours and contour levels: theorems (C146) -/
set_option linter.unusedVariables false
set_option linter.unusedSimpArgs false
namespace Verif.Plots
open Verif.Py

/-! ## Specification -/

/-- The probability content of the cells with density above `x`. (Specification.) -/
noncomputable def content (p : List ℝ) (x : ℝ) : ℝ := (p.map fun v => if x < v then v else 0).sum

/-- What is assumed of `scipy.optimize.brentq` with tolerance `ε`: if the function does not have the same sign
at 0 and 1, the answer lies in an interval of length at most `ε` inside [0, 1] on which the sign changes.
(Specification.) -/
def FindsSignChange (root : (ℝ → ℝ) → ℝ) (ε : ℝ) : Prop :=
  ∀ g : ℝ → ℝ, g 0 * g 1 ≤ 0 → ∃ lo hi, 0 ≤ lo ∧ lo ≤ root g ∧ root g ≤ hi ∧ hi ≤ 1 ∧ hi - lo ≤ ε ∧ g lo * g hi ≤ 0

/-! ## Lemmas -/

theorem excess_eq (p : List ℝ) (cl x : ℝ) : excess p cl x = content p x - cl := by
  unfold excess content
  congr 1
  induction p with
  | nil => rfl
  | cons v l ih =>
    by_cases h : x < v
    · simp [h, ih]
    · simp [h, ih]

theorem content_anti (p : List ℝ) (hp : ∀ v ∈ p, 0 ≤ v) {x y : ℝ} (h : x ≤ y) : content p y ≤ content p x := by
  unfold content
  induction p with
  | nil => simp
  | cons v l ih =>
    have := ih (fun w hw => hp w (by simp [hw]))
    have h0 := hp v (by simp)
    simp only [List.map_cons, List.sum_cons]
    have : (if y < v then v else 0) ≤ (if x < v then v else 0) := by
      by_cases h1 : y < v
      · rw [if_pos h1, if_pos (lt_of_le_of_lt h h1)]
      · rw [if_neg h1]; split <;> simp [h0]
    linarith

theorem content_zero (p : List ℝ) (hp : ∀ v ∈ p, 0 ≤ v) : content p 0 = p.sum := by
  unfold content
  induction p with
  | nil => rfl
  | cons v l ih =>
    have h0 := hp v (by simp)
    simp only [List.map_cons, List.sum_cons, ih (fun w hw => hp w (by simp [hw]))]
    by_cases h1 : 0 < v
    · rw [if_pos h1]
    · rw [if_neg h1]; linarith

theorem content_one (p : List ℝ) (hp : ∀ v ∈ p, v ≤ 1) : content p 1 = 0 := by
  unfold content
  induction p with
  | nil => rfl
  | cons v l ih =>
    have h0 := hp v (by simp)
    simp only [List.map_cons, List.sum_cons, ih (fun w hw => hp w (by simp [hw])), if_neg (not_lt.2 h0), add_zero]

theorem normalise_sum (f : List ℝ) (h : f.sum ≠ 0) : (normalise f).sum = 1 := by
  unfold normalise
  rw [show (f.map fun v => v / f.sum) = f.map fun v => v * (f.sum)⁻¹ from by simp [div_eq_mul_inv],
    List.sum_map_mul_right]
  simp [h]

theorem normalise_nonneg (f : List ℝ) (h : ∀ v ∈ f, 0 ≤ v) : ∀ v ∈ normalise f, 0 ≤ v := by
  intro v hv
  obtain ⟨w, hw, rfl⟩ := List.mem_map.1 hv
  exact div_nonneg (h w hw) (List.sum_nonneg h)

theorem le_sum_of_mem (l : List ℝ) (h : ∀ v ∈ l, 0 ≤ v) : ∀ v ∈ l, v ≤ l.sum := by
  intro v hv
  exact List.single_le_sum h v hv

/-- **C146 (number of bins).** Unless given, the histogram has between 10 and 200 bins per axis for a
non-empty sample, ten times the integer part of the square root of the number of points below the cap; a given
number is used as it is. -/
theorem C146_bins (n : ℕ) :
    (1 ≤ n → 10 ≤ nBins none n) ∧ nBins none n ≤ 200 ∧ (∀ k, nBins (some k) n = k) ∧
    (∀ r, r * r ≤ n → n < (r + 1) * (r + 1) → r ≤ 20 → nBins none n = 10 * r) ∧
    (∀ m, n ≤ m → nBins none n ≤ nBins none m) := by
  refine ⟨?_, ?_, fun _ => rfl, ?_, ?_⟩
  · intro h
    have : 1 ≤ Nat.sqrt n := by
      rw [Nat.le_sqrt]; omega
    simp only [nBins, Option.getD_none]
    omega
  · simp only [nBins, Option.getD_none]
    omega
  · intro r h1 h2 h3
    have : Nat.sqrt n = r := by
      have e1 : r ≤ Nat.sqrt n := Nat.le_sqrt.2 h1
      have e2 : Nat.sqrt n < r + 1 := Nat.sqrt_lt.2 h2
      omega
    simp only [nBins, Option.getD_none, this]
    omega
  · intro m h
    have := Nat.sqrt_le_sqrt h
    simp only [nBins, Option.getD_none]
    omega

/-- **C146 (levels exist).** For every non-negative density with positive sum and every number of standard
deviations whose confidence level lies strictly between 0 and 1, the search for the level does not fail. -/
theorem C146_level_exists (root : (ℝ → ℝ) → ℝ) (clOf : ℝ → ℝ) (f : List ℝ) (n : ℝ) (hf : ∀ v ∈ f, 0 ≤ v)
    (hs : 0 < f.sum) (h0 : 0 < clOf n) (h1 : clOf n < 1) :
    ∃ l, getLevel root clOf (normalise f) n = .ok l := by
  have hp := normalise_nonneg f hf
  have hsum := normalise_sum f hs.ne'
  have hle : ∀ v ∈ normalise f, v ≤ 1 := by
    intro v hv; rw [← hsum]; exact le_sum_of_mem _ hp v hv
  unfold getLevel brentq
  rw [if_neg]
  · exact ⟨_, rfl⟩
  · rw [excess_eq, excess_eq, content_zero _ hp, content_one _ hle, hsum, not_lt]
    nlinarith

/-- **C146 (content of a level).** The level found has the asked-for content within the tolerance of the root
finder: slightly below it the cells with higher density contain at least the confidence level, slightly above
it at most. -/
theorem C146_content (root : (ℝ → ℝ) → ℝ) (ε : ℝ) (hr : FindsSignChange root ε) (clOf : ℝ → ℝ) (f : List ℝ)
    (n l : ℝ) (hf : ∀ v ∈ f, 0 ≤ v) (h : getLevel root clOf (normalise f) n = .ok l) :
    ∃ lo hi, 0 ≤ lo ∧ lo ≤ l ∧ l ≤ hi ∧ hi ≤ 1 ∧ hi - lo ≤ ε ∧
      content (normalise f) hi ≤ clOf n ∧ clOf n ≤ content (normalise f) lo := by
  have hp := normalise_nonneg f hf
  unfold getLevel brentq at h
  split at h
  · simp at h
  · rename_i hg
    injection h with h
    obtain ⟨lo, hi, a0, a1, a2, a3, a4, a5⟩ := hr _ (not_lt.1 hg)
    rw [h] at a1 a2
    rw [excess_eq, excess_eq] at a5
    have := content_anti (normalise f) hp (a1.trans a2)
    refine ⟨lo, hi, a0, a1, a2, a3, a4, ?_, ?_⟩
    · by_contra hc
      push Not at hc
      nlinarith
    · by_contra hc
      push Not at hc
      nlinarith

/-- **C146 (more standard deviations, lower density).** A larger confidence level never gives a higher density
level, up to the tolerance of the root finder. -/
theorem C146_levels_ordered (root : (ℝ → ℝ) → ℝ) (ε : ℝ) (hr : FindsSignChange root ε) (clOf : ℝ → ℝ) (f : List ℝ)
    (n1 n2 l1 l2 : ℝ) (hf : ∀ v ∈ f, 0 ≤ v) (hcl : clOf n1 < clOf n2)
    (h1 : getLevel root clOf (normalise f) n1 = .ok l1) (h2 : getLevel root clOf (normalise f) n2 = .ok l2) :
    l2 < l1 + 2 * ε := by
  obtain ⟨lo1, hi1, a0, a1, a2, a3, a4, a5, a6⟩ := C146_content root ε hr clOf f n1 l1 hf h1
  obtain ⟨lo2, hi2, b0, b1, b2, b3, b4, b5, b6⟩ := C146_content root ε hr clOf f n2 l2 hf h2
  by_contra hc
  push Not at hc
  have : hi1 ≤ lo2 := by linarith
  have := content_anti (normalise f) (normalise_nonneg f hf) this
  linarith

theorem insertAsc_perm (x : ℝ) (l : List ℝ) : (insertAsc x l).Perm (x :: l) := by
  induction l with
  | nil => exact List.Perm.refl _
  | cons y l ih =>
    unfold insertAsc
    split
    · exact List.Perm.refl _
    · exact (List.Perm.cons y ih).trans (List.Perm.swap x y l)

theorem sortAsc_perm (l : List ℝ) : (sortAsc l).Perm l := by
  induction l with
  | nil => exact List.Perm.refl _
  | cons x l ih => exact (insertAsc_perm x _).trans (List.Perm.cons x ih)

theorem insertAsc_sorted (x : ℝ) (l : List ℝ) (h : l.Pairwise (· ≤ ·)) : (insertAsc x l).Pairwise (· ≤ ·) := by
  induction l with
  | nil => simp [insertAsc]
  | cons y l ih =>
    rw [List.pairwise_cons] at h
    unfold insertAsc
    split
    · rename_i hxy
      rw [List.pairwise_cons, List.pairwise_cons]
      refine ⟨?_, h⟩
      intro z hz
      rcases List.mem_cons.1 hz with rfl | hz
      · exact hxy
      · exact hxy.trans (h.1 z hz)
    · rename_i hxy
      rw [List.pairwise_cons]
      refine ⟨?_, ih h.2⟩
      intro z hz
      rcases List.mem_cons.1 ((insertAsc_perm x l).mem_iff.1 hz) with rfl | hz
      · exact (not_le.1 hxy).le
      · exact h.1 z hz

/-- The density with non-positive values replaced by 10⁻³². (Specification.) -/
noncomputable def positivePart (v : ℝ) : ℝ := if v ≤ 0 then 1e-32 else v

theorem positivePart_pos (v : ℝ) : 0 < positivePart v := by
  unfold positivePart
  split
  · norm_num
  · rename_i h; exact not_le.1 h

theorem densityData_shape (root : (ℝ → ℝ) → ℝ) (clOf : ℝ → ℝ) (f0 : ℝ) (f : List ℝ) (ns : NSigma) (z levels)
    (h : densityData root clOf f0 f ns = .ok (z, levels)) :
    ∃ ls m, ns.list.mapM (getLevel root clOf (normalise (f0 :: f))) = .ok ls ∧
      z = ((normalise (f0 :: f)).map toChi2).map (fun v => v - m) ∧ levels = ls.map (fun l => -2 * Real.log l - m) ∧
      (∀ v ∈ (normalise (f0 :: f)).map toChi2, m ≤ v) ∧ m ∈ (normalise (f0 :: f)).map toChi2 := by
  unfold densityData at h
  obtain ⟨ls, h1, h⟩ := bind_eq_ok h
  injection h with h
  have he : (normalise (f0 :: f)).map toChi2 = toChi2 (f0 / (f0 :: f).sum) :: f.map fun v => toChi2 (v / (f0 :: f).sum) := by
    simp [normalise, Function.comp_def]
  refine ⟨ls, _, h1, (Prod.mk.inj h).1.symm, (Prod.mk.inj h).2.symm, ?_, ?_⟩
  · rw [he]
    intro v hv
    have := npMin_le (toChi2 (f0 / (f0 :: f).sum)) (f.map fun v => toChi2 (v / (f0 :: f).sum))
    rcases List.mem_cons.1 hv with rfl | hv
    · exact this.1
    · exact this.2 v hv
  · rw [he]
    exact npMin_mem _ _

/-- **C146 (χ² scale).** The function plotted is `-2 log` of the (positive part of the) density, shifted such
that its minimum, at the mode, is 0. -/
theorem C146_chi2 (root : (ℝ → ℝ) → ℝ) (clOf : ℝ → ℝ) (f0 : ℝ) (f : List ℝ) (ns : NSigma) (z levels)
    (h : densityData root clOf f0 f ns = .ok (z, levels)) :
    z.length = f.length + 1 ∧ (∀ v ∈ z, 0 ≤ v) ∧ (0 : ℝ) ∈ z ∧
    ∀ (i j : ℕ) (pi pj zi zj : ℝ), (normalise (f0 :: f))[i]? = some pi → (normalise (f0 :: f))[j]? = some pj →
      z[i]? = some zi → z[j]? = some zj →
      zi - zj = -2 * Real.log (positivePart pi / positivePart pj) := by
  obtain ⟨ls, m, -, hz, -, hm, hmem⟩ := densityData_shape root clOf f0 f ns z levels h
  rw [hz]
  refine ⟨by simp [normalise], ?_, ?_, ?_⟩
  · intro v hv
    obtain ⟨w, hw, rfl⟩ := List.mem_map.1 hv
    have := hm w hw
    linarith
  · exact List.mem_map.2 ⟨m, hmem, sub_self m⟩
  · intro i j pi pj zi zj hi hj hzi hzj
    simp only [List.getElem?_map, hi, hj, Option.map_some, Option.some.injEq] at hzi hzj
    rw [← hzi, ← hzj, Real.log_div (positivePart_pos _).ne' (positivePart_pos _).ne']
    unfold toChi2 positivePart
    ring

/-- **C146 (contours enclose the content).** The `k`-th level belongs to the `k`-th smallest number of standard
deviations; the points of the grid inside the contour (plotted function below the level) are exactly those
whose density is above the density level found for it. -/
theorem C146_region (root : (ℝ → ℝ) → ℝ) (clOf : ℝ → ℝ) (f0 : ℝ) (f : List ℝ) (ns : NSigma) (z levels)
    (h : densityData root clOf f0 f ns = .ok (z, levels)) (k : ℕ) (lev : ℝ) (hk : levels[k]? = some lev) :
    ∃ n l, (match ns with
        | .one n => [n]
        | .many s => sortAsc s)[k]? = some n ∧
      getLevel root clOf (normalise (f0 :: f)) n = .ok l ∧
      (0 < l → ∀ (i : ℕ) p v, (normalise (f0 :: f))[i]? = some p → z[i]? = some v →
        (v < lev ↔ l < positivePart p)) := by
  obtain ⟨ls, m, hls, hz, hl, -, -⟩ := densityData_shape root clOf f0 f ns z levels h
  rw [mapM_ok_iff] at hls
  rw [hl, List.getElem?_map] at hk
  cases hlk : ls[k]? with
  | none => rw [hlk] at hk; simp at hk
  | some l =>
    rw [hlk] at hk
    simp only [Option.map_some, Option.some.injEq] at hk
    have hlen := hls.length_eq
    have hkl : k < ls.length := (List.getElem?_eq_some_iff.1 hlk).1
    have hkn : k < ns.list.length := by omega
    have hget := (List.forall₂_iff_get.1 hls).2 k hkn hkl
    have hlv : ls.get ⟨k, hkl⟩ = l := by
      have := (List.getElem?_eq_some_iff.1 hlk).2
      simpa using this
    refine ⟨ns.list.get ⟨k, hkn⟩, l, ?_, ?_, ?_⟩
    · have : ns.list[k]? = some (ns.list.get ⟨k, hkn⟩) := by
        simp
      cases ns <;> exact this
    · rw [← hlv]; exact hget
    · intro hl0 i p v hp hv
      rw [hz] at hv
      simp only [List.getElem?_map, hp, Option.map_some, Option.some.injEq] at hv
      rw [← hv, ← hk]
      have e : toChi2 p = -2 * Real.log (positivePart p) := rfl
      rw [e]
      have := Real.log_lt_log_iff hl0 (positivePart_pos p)
      constructor
      · intro h1
        apply this.1
        linarith
      · intro h1
        have := this.2 h1
        linarith

/-- **C146 (order of the levels).** `n_sigma` is sorted, nothing is lost. -/
theorem C146_sorted (s : List ℝ) : (sortAsc s).Pairwise (· ≤ ·) ∧ (sortAsc s).Perm s := by
  refine ⟨?_, sortAsc_perm s⟩
  induction s with
  | nil => exact List.Pairwise.nil
  | cons x l ih => exact insertAsc_sorted x _ ih

/-! ## `contour` -/

/-- **C146 (opacities).** There is one opacity for each level; they start at 1, decrease strictly, and are all
positive. -/
theorem C146_alphas (N : ℕ) :
    (alphas N).length = N ∧ (∀ (i : ℕ) v, (alphas N)[i]? = some v → v = 1 - (i : ℝ) / N ∧ 0 < v ∧ v ≤ 1) ∧
    (alphas N).Pairwise (· > ·) := by
  have hv : ∀ i < N, max (1 - (i : ℝ) / N) 0 = 1 - (i : ℝ) / N ∧ 0 < 1 - (i : ℝ) / N := by
    intro i hi
    have hN : (0 : ℝ) < N := by exact_mod_cast (by omega : 0 < N)
    have : (i : ℝ) / N < 1 := by
      rw [div_lt_one hN]; exact_mod_cast hi
    exact ⟨max_eq_left (by linarith), by linarith⟩
  refine ⟨by simp [alphas], ?_, ?_⟩
  · intro i v h
    unfold alphas at h
    rw [List.getElem?_map] at h
    cases hr : (List.range N)[i]? with
    | none => rw [hr] at h; simp at h
    | some j =>
      rw [hr] at h
      obtain ⟨hi, hj⟩ := List.getElem?_eq_some_iff.1 hr
      rw [List.getElem_range] at hj
      subst hj
      simp only [List.length_range] at hi
      simp only [Option.map_some, Option.some.injEq] at h
      rw [(hv i hi).1] at h
      rw [← h]
      refine ⟨rfl, (hv i hi).2, ?_⟩
      have : (0 : ℝ) ≤ (i : ℝ) / N := by positivity
      linarith
  · unfold alphas
    rw [List.pairwise_map]
    have hp : (List.range N).Pairwise fun a b => a < b ∧ b < N := by
      rw [List.pairwise_iff_getElem]
      intro i j hi hj hij
      simp only [List.getElem_range, List.length_range] at *
      exact ⟨hij, by simpa using hj⟩
    refine hp.imp ?_
    rintro a b ⟨hab, hb⟩
    have hN : (0 : ℝ) < N := by exact_mod_cast (by omega : 0 < N)
    rw [(hv a (by omega)).1, (hv b hb).1]
    have : (a : ℝ) / N < b / N := by
      apply div_lt_div_of_pos_right _ hN
      exact_mod_cast hab
    linarith

/-- **C146 (levels of the filling).** For positive ascending levels and a non-negative function, the levels of
the filling are the levels of the lines with one more in front that is not above any value of the function, and
they are strictly ascending: every point of the grid below the highest level is filled.  Without levels there
is a `ValueError`. -/
theorem C146_levelsf (z0 : ℝ) (z levels : List ℝ) :
    (levelsF z0 z [] = .error .valueError) ∧
    (levels ≠ [] → (∀ l ∈ levels, 0 < l) → levels.Pairwise (· < ·) →
      ∃ b, levelsF z0 z levels = .ok (b :: levels) ∧ (b :: levels).Pairwise (· < ·) ∧ (∀ v ∈ z0 :: z, b ≤ v) ∧
        ((∀ v ∈ z0 :: z, 0 ≤ v) → 0 ≤ b)) := by
  refine ⟨rfl, ?_⟩
  intro hne hpos hlt
  cases levels with
  | nil => exact absurd rfl hne
  | cons l0 l =>
    obtain ⟨m1, m2⟩ := npMin_le l0 l
    have hm := npMin_mem l0 l
    have hmpos := hpos _ hm
    refine ⟨min (npMin z0 z) (npMin l0 l * (1 - 1e-16)), rfl, ?_, ?_, ?_⟩
    · rw [List.pairwise_cons]
      refine ⟨?_, hlt⟩
      intro y hy
      have hle : npMin l0 l ≤ y := by
        rcases List.mem_cons.1 hy with rfl | hy
        · exact m1
        · exact m2 y hy
      have h1 : npMin l0 l * (1 - 1e-16) < npMin l0 l := by
        have : (0 : ℝ) < npMin l0 l * 1e-16 := by positivity
        linarith
      exact lt_of_le_of_lt (min_le_right _ _) (lt_of_lt_of_le h1 hle)
    · intro v hv
      obtain ⟨n1, n2⟩ := npMin_le z0 z
      refine (min_le_left _ _).trans ?_
      rcases List.mem_cons.1 hv with rfl | hv
      · exact n1
      · exact n2 v hv
    · intro hz
      refine le_min (hz _ (npMin_mem z0 z)) ?_
      have : (0 : ℝ) ≤ 1 - 1e-16 := by norm_num
      positivity

/-! ## Keyword passing -/

/-- The claim that a logarithmic scale passed to `likelihood_contour` is either used or rejected. (Specification.) -/
def ScaleRespected : Prop :=
  ∀ (f : ℝ × ℝ → ℝ) (xMin xMax yMin yMax : ℝ) (steps threads : ℕ) (g : Scales) (r),
    likelihoodContour f xMin xMax yMin yMax steps threads g = .ok r →
      contourData f xMin xMax yMin yMax g.xscale g.yscale steps threads = .ok r

/-- **C146 (scales, finding).** `likelihood_contour` silently ignores `xscale` and `yscale` (they go to `contour`,
which swallows unknown keywords): the grid is the linear one whatever is asked for, also for values
`likelihood_contour_data` rejects. -/
theorem C146_scale_ignored :
    (∀ (f : ℝ × ℝ → ℝ) (xMin xMax yMin yMax : ℝ) (steps threads : ℕ) (g : Scales),
      likelihoodContour f xMin xMax yMin yMax steps threads g
        = contourData f xMin xMax yMin yMax "linear" "linear" steps threads) ∧ ¬ ScaleRespected := by
  refine ⟨fun _ _ _ _ _ _ _ _ => rfl, ?_⟩
  intro h
  have := h (fun _ => 0) 0 1 0 1 2 1 ⟨"log", "linear"⟩ _ rfl
  simp [contourData, axis, Bind.bind, Except.bind] at this

/-- **C146 (`band_plot`).** Without precalculated values, `band_plot` uses the data of `likelihood_contour_data`
with the same scales. -/
theorem C146_band_plot_data (f : ℝ × ℝ → ℝ) (xMin xMax yMin yMax : ℝ) (steps threads ny : ℕ) (g : Scales) :
    bandPlot f xMin xMax yMin yMax steps threads g none ny
      = contourData f xMin xMax yMin yMax g.xscale g.yscale steps threads := rfl

/-- The claim that precalculated values are plotted on a grid of their own shape. (Specification.) -/
def PreShape : Prop :=
  ∀ (f : ℝ × ℝ → ℝ) (xMin xMax yMin yMax : ℝ) (steps threads ny : ℕ) (g : Scales) (z : List (List ℝ)) (r),
    (∀ row ∈ z, row.length = ny) → bandPlot f xMin xMax yMin yMax steps threads g (some z) ny = .ok r →
      r.1.map List.length = r.2.map List.length

/-- **C146 (`band_plot` with precalculated values, finding).** A square array gets a grid of its shape, with
`z[i][j]` at the `j`-th x and the `i`-th y value.  For any other shape (`rows × ny`) the grid is transposed:
it has `ny` rows of `rows` points, so grid and values do not fit together. -/
theorem C146_band_plot_pre :
    (∀ (f : ℝ × ℝ → ℝ) (xMin xMax yMin yMax : ℝ) (steps threads ny : ℕ) (g : Scales) (z : List (List ℝ)),
      ∃ grid : List (List (ℝ × ℝ)), bandPlot f xMin xMax yMin yMax steps threads g (some z) ny = .ok (grid, z) ∧
        grid.length = ny ∧ (∀ row ∈ grid, row.length = z.length) ∧
        ∀ (i j : ℕ) (x y : ℝ), (linspace xMin xMax z.length)[j]? = some x → (linspace yMin yMax ny)[i]? = some y →
          (grid[i]?.bind fun row => row[j]?) = some (x, y)) ∧ ¬ PreShape := by
  constructor
  · intro f xMin xMax yMin yMax steps threads ny g z
    refine ⟨_, rfl, ?_, ?_, ?_⟩
    · simp [meshgrid, linspace]
    · intro row hrow
      obtain ⟨y, -, rfl⟩ := List.mem_map.1 hrow
      simp [linspace]
    · intro i j x y hx hy
      simp [meshgrid, hx, hy]
  · intro h
    have := h (fun _ => 0) 0 1 0 1 2 1 3 ⟨"linear", "linear"⟩ [[0, 0, 0]] _ (by simp) rfl
    simp [meshgrid, linspace] at this

/-- A concrete case: four cells of density 1/2, 1/4, 1/8, 1/8; the level of a content of 60 % found by an exact
root finder is 1/4 — above it lie 50 %, just below it 75 %. -/
theorem C146_nonvacuous :
    content (normalise [4, 2, 1, 1]) (1 / 4) = 1 / 2 ∧ content (normalise [4, 2, 1, 1]) (1 / 5) = 3 / 4 ∧
    (∃ l, getLevel (fun _ => 1 / 4) (fun _ => 0.6) (normalise [4, 2, 1, 1]) 1 = .ok l) := by
  refine ⟨?_, ?_, ?_⟩
  · unfold content normalise; norm_num
  · unfold content normalise; norm_num
  · exact C146_level_exists _ _ _ _ (by intro v hv; fin_cases hv <;> norm_num) (by norm_num) (by norm_num) (by norm_num)

end Verif.Plots
