import Mathlib.Tactic.Linarith
import Mathlib.Tactic.FieldSimp
import Mathlib.Algebra.Order.BigOperators.Group.List
import Mathlib.Algebra.BigOperators.Ring.List
import Verif.Plots.Model
/-! # Plot functions: theorems (C67) -/
set_option linter.unusedVariables false
set_option linter.unusedSimpArgs false
namespace Verif.Plots
open Verif.Py

/-! ## Colours and ranges -/

/-- **C67 (`get_color`).** Without `col`, the explicit colour is returned, or `C0`; an integer `col` gives
the palette colour `C{col}`; any other `col` raises `ValueError`. -/
theorem C67_get_color (color : Option String) (n : Int) :
    getColor none color = .ok (color.getD "C0") ∧
    getColor (some (.int n)) color = .ok ("C" ++ toString n) ∧
    getColor (some .other) color = .error .valueError := by
  cases color <;> exact ⟨rfl, rfl, rfl⟩

/-- **C67 (`get_color`: explicit colour).** Contrary to its documentation, an explicit colour is not used
if `col` is also given, whatever the two are (unless they happen to be the same string). -/
theorem C67_color_ignored (n : Int) (c : String) (h : c ≠ "C" ++ toString n) :
    getColor (some (.int n)) (some c) ≠ .ok c := by
  intro h'
  exact h (Except.ok.inj h').symm

/-- **C67 (`pdf_plot` range), partial.** A non-zero boundary that is given is used, a missing one is
replaced by the end of the support.  (Zero is not: next theorem.) -/
theorem C67_pdf_range_partial (xMin xMax : Option ℝ) (s : ℝ × ℝ) (h0 : xMin ≠ some 0) (h1 : xMax ≠ some 0) :
    pdfRange xMin xMax s = (xMin.getD s.1, xMax.getD s.2) := by
  unfold pdfRange orDefault
  refine Prod.ext ?_ ?_
  · cases xMin with
    | none => rfl
    | some v => simp only [Option.getD_some]; rw [if_neg (fun h => h0 (by rw [h]))]
  · cases xMax with
    | none => rfl
    | some v => simp only [Option.getD_some]; rw [if_neg (fun h => h1 (by rw [h]))]

/-- **C67 (`pdf_plot` range): a boundary at zero is ignored.** For every support that does not end there,
asking for a plot from (or to) 0 has no effect. -/
theorem C67_pdf_range_zero_ignored (x : Option ℝ) (s : ℝ × ℝ) :
    pdfRange (some 0) x s = pdfRange none x s ∧ pdfRange x (some 0) s = pdfRange x none s := by
  simp [pdfRange, orDefault]

/-! ## `error_budget_pie` -/

theorem insertDesc_perm (e : BKey × ℝ) (l : List (BKey × ℝ)) : (insertDesc e l).Perm (e :: l) := by
  induction l with
  | nil => exact .refl _
  | cons f l ih =>
    unfold insertDesc
    split_ifs
    · exact .refl _
    · exact (List.Perm.cons f ih).trans (.swap e f l)

theorem sortDesc_perm (l : List (BKey × ℝ)) : (sortDesc l).Perm l := by
  induction l with
  | nil => exact .refl _
  | cons e l ih => exact (insertDesc_perm e _).trans (List.Perm.cons e ih)

theorem insertDesc_sorted (e : BKey × ℝ) (l : List (BKey × ℝ))
    (h : l.Pairwise fun a b => b.2 ≤ a.2) : (insertDesc e l).Pairwise fun a b => b.2 ≤ a.2 := by
  induction l with
  | nil => simp [insertDesc]
  | cons f l ih =>
    rw [List.pairwise_cons] at h
    unfold insertDesc
    split_ifs with hc
    · refine List.pairwise_cons.2 ⟨fun g hg => ?_, List.pairwise_cons.2 h⟩
      rcases List.mem_cons.1 hg with rfl | hg
      · linarith
      · linarith [h.1 g hg]
    · refine List.pairwise_cons.2 ⟨fun g hg => ?_, ih h.2⟩
      rcases List.mem_cons.1 ((insertDesc_perm e l).mem_iff.1 hg) with rfl | hg
      · linarith
      · exact h.1 g hg

theorem sortDesc_sorted (l : List (BKey × ℝ)) : (sortDesc l).Pairwise fun a b => b.2 ≤ a.2 := by
  induction l with
  | nil => simp [sortDesc]
  | cons e l ih => exact insertDesc_sorted e _ ih

theorem pieLoop_ok (tex : TexDict) (cutoff tot : ℝ) (l : List (BKey × ℝ)) (r)
    (h : pieLoop tex cutoff tot l = .ok r) :
    r.1.length = r.2.1.length ∧
    r.2.1 = (l.filter fun e => decide (cutoff < e.2 ^ 2 / tot)).map (fun e => e.2 ^ 2 / tot) ∧
    r.2.2 = (l.filter fun e => !decide (cutoff < e.2 ^ 2 / tot)).map (fun e => e.2 ^ 2 / tot) ∧
    List.Forall₂ (fun e s => pieLabel tex e.1 = .ok s)
      (l.filter fun e => decide (cutoff < e.2 ^ 2 / tot)) r.1 := by
  induction l generalizing r with
  | nil => cases h; exact ⟨rfl, rfl, rfl, .nil⟩
  | cons e l ih =>
    obtain ⟨k, v⟩ := e
    unfold pieLoop at h
    split_ifs at h with h1 h2
    · obtain ⟨lab, hl, h⟩ := bind_eq_ok h
      obtain ⟨r', hr, h⟩ := bind_eq_ok h
      cases h
      obtain ⟨i1, i2, i3, i4⟩ := ih r' hr
      refine ⟨by simp [i1], ?_, ?_, ?_⟩
      · simp [List.filter_cons, h2, i2]
      · simp [List.filter_cons, h2, i3]
      · rw [List.filter_cons, if_pos (by simpa using h2)]
        exact .cons hl i4
    · obtain ⟨r', hr, h⟩ := bind_eq_ok h
      cases h
      obtain ⟨i1, i2, i3, i4⟩ := ih r' hr
      refine ⟨i1, ?_, ?_, ?_⟩
      · simp [List.filter_cons, h2, i2]
      · simp [List.filter_cons, h2, i3]
      · rw [List.filter_cons, if_neg (by simpa using h2)]
        exact i4

theorem pieLoop_total (tex : TexDict) (cutoff tot : ℝ) (h0 : tot ≠ 0) (l : List (BKey × ℝ))
    (hk : ∀ e ∈ l, ∃ s, pieLabel tex e.1 = .ok s) : ∃ r, pieLoop tex cutoff tot l = .ok r := by
  induction l with
  | nil => exact ⟨_, rfl⟩
  | cons e l ih =>
    obtain ⟨k, v⟩ := e
    obtain ⟨r, hr⟩ := ih (fun e he => hk e (List.mem_cons_of_mem _ he))
    obtain ⟨s, hs⟩ := hk (k, v) (List.mem_cons_self ..)
    unfold pieLoop
    rw [if_neg h0]
    split_ifs
    · exact ⟨_, by rw [hs, ok_bind_eq, hr, ok_bind_eq]⟩
    · exact ⟨_, by rw [hr, ok_bind_eq]⟩

/-- Splitting a sum by a predicate. -/
theorem sum_filter_split {α : Type} (p : α → Bool) (f : α → ℝ) (l : List α) :
    ((l.filter p).map f).sum + ((l.filter fun a => !p a).map f).sum = (l.map f).sum := by
  induction l with
  | nil => simp
  | cons a l ih =>
    by_cases h : p a <;> simp [List.filter_cons, h] <;> linarith

/-- **C67 (pie chart).** For every error budget with a non-zero error: if all tuples consist of known
parameters a chart is drawn; its fractions sum to one; every wedge except "other" is the squared error of
one entry divided by the total, in descending order of the errors; "other" collects exactly the entries
whose share does not exceed the cutoff. -/
theorem C67_pie (tex : TexDict) (d : Dict BKey ℝ) (cutoff : ℝ) (hd : ∃ e ∈ d, e.2 ≠ 0) :
    ((∀ e ∈ d, ∃ s, pieLabel tex e.1 = .ok s) → ∃ w, errorBudgetPie tex d cutoff = .ok w) ∧
    ∀ w, errorBudgetPie tex d cutoff = .ok w →
      (w.map Prod.snd).sum = 1 ∧
      ∃ big small : List (BKey × ℝ), (big ++ small).Perm d ∧
        (∀ e ∈ big, cutoff < e.2 ^ 2 / varTot d) ∧ (∀ e ∈ small, e.2 ^ 2 / varTot d ≤ cutoff) ∧
        big.Pairwise (fun a b => b.2 ≤ a.2) ∧
        ∃ labs, List.Forall₂ (fun e s => pieLabel tex e.1 = .ok s) big labs ∧
          w = labs.zip (big.map fun e => e.2 ^ 2 / varTot d) ++
            (if small = [] then [] else [("other", (small.map fun e => e.2 ^ 2 / varTot d).sum)]) := by
  have hpos : 0 < varTot d := by
    obtain ⟨e, he, h0⟩ := hd
    have : (0 : ℝ) < e.2 ^ 2 := by positivity
    refine lt_of_lt_of_le this ?_
    unfold varTot
    exact List.single_le_sum (by
      intro x hx
      obtain ⟨y, -, rfl⟩ := List.mem_map.1 hx
      positivity) _ (List.mem_map.2 ⟨e, he, rfl⟩)
  constructor
  · intro hk
    obtain ⟨r, hr⟩ := pieLoop_total tex cutoff (varTot d) hpos.ne' (sortDesc d)
      (fun e he => hk e ((sortDesc_perm d).mem_iff.1 he))
    exact ⟨_, by unfold errorBudgetPie; rw [hr, ok_bind_eq]⟩
  · intro w hw
    unfold errorBudgetPie at hw
    obtain ⟨r, hr, hw⟩ := bind_eq_ok hw
    cases hw
    obtain ⟨h1, h2, h3, h4⟩ := pieLoop_ok _ _ _ _ _ hr
    set p : BKey × ℝ → Bool := fun e => decide (cutoff < e.2 ^ 2 / varTot d) with hp
    set big := (sortDesc d).filter p with hbig
    set small := (sortDesc d).filter fun e => !p e with hsmall
    have hsum : (r.2.1).sum + (r.2.2).sum = 1 := by
      rw [h2, h3, sum_filter_split p (fun e => e.2 ^ 2 / varTot d)]
      have : ((sortDesc d).map fun e => e.2 ^ 2 / varTot d).sum =
          (d.map fun e => e.2 ^ 2 / varTot d).sum := ((sortDesc_perm d).map _).sum_eq
      rw [this]
      have e : (d.map fun e => e.2 ^ 2 / varTot d) = (d.map fun e => e.2 ^ 2 * (varTot d)⁻¹) := by
        simp only [div_eq_mul_inv]
      rw [e, List.sum_map_mul_right]
      exact mul_inv_cancel₀ hpos.ne'
    constructor
    · unfold pieFinish
      rw [List.map_append, List.sum_append, List.map_snd_zip (le_of_eq h1.symm), ← hsum]
      congr 1
      split_ifs with h
      · rw [h]; rfl
      · simp
    · refine ⟨big, small, ?_, ?_, ?_, ?_, r.1, h4, ?_⟩
      · exact (List.filter_append_perm p (sortDesc d)).trans (sortDesc_perm d)
      · intro e he
        simpa [hp] using (List.mem_filter.1 he).2
      · intro e he
        simpa [hp] using (List.mem_filter.1 he).2
      · exact (sortDesc_sorted d).filter p
      · unfold pieFinish
        rw [h2, h3]
        congr 1
        simp only [List.map_eq_nil_iff]

/-- All errors zero: `ZeroDivisionError`. -/
theorem C67_pie_zero (tex : TexDict) (d : Dict BKey ℝ) (cutoff : ℝ) (hne : d ≠ []) (h0 : ∀ e ∈ d, e.2 = 0) :
    errorBudgetPie tex d cutoff = .error .zeroDivisionError := by
  have hv : varTot d = 0 := by
    unfold varTot
    apply List.sum_eq_zero
    intro x hx
    obtain ⟨e, he, rfl⟩ := List.mem_map.1 hx
    rw [h0 e he]; simp
  have hs : sortDesc d ≠ [] := by
    intro h
    have := (sortDesc_perm d).length_eq
    rw [h] at this
    exact hne (List.length_eq_zero_iff.1 this.symm)
  obtain ⟨e, l, hl⟩ := List.exists_cons_of_ne_nil hs
  unfold errorBudgetPie
  rw [hl, hv]
  obtain ⟨k, v⟩ := e
  unfold pieLoop
  rw [if_pos rfl]; rfl

example : (∃ e ∈ ([(.str "Vcb", 3), (.tup ["A", "B"], 4), (.str "x", 1 / 10)] : Dict BKey ℝ), e.2 ≠ 0) ∧
    ∀ e ∈ ([(.str "Vcb", 3), (.tup ["A", "B"], 4), (.str "x", 1 / 10)] : Dict BKey ℝ),
      ∃ s, pieLabel [("A", "a"), ("B", "b")] e.1 = .ok s := by
  constructor
  · exact ⟨_, List.mem_cons_self .., by norm_num⟩
  · intro e he
    simp only [List.mem_cons, List.not_mem_nil, or_false] at he
    rcases he with rfl | rfl | rfl
    · exact ⟨_, rfl⟩
    · exact ⟨"a, b", by decide +kernel⟩
    · exact ⟨_, rfl⟩

/-! ## `contour` -/

theorem npMin_le (z0 : ℝ) (z : List ℝ) : npMin z0 z ≤ z0 ∧ ∀ v ∈ z, npMin z0 z ≤ v := by
  unfold npMin
  induction z generalizing z0 with
  | nil => simp
  | cons a z ih =>
    obtain ⟨h1, h2⟩ := ih (min z0 a)
    rw [List.foldl_cons]
    refine ⟨h1.trans (min_le_left _ _), fun v hv => ?_⟩
    rcases List.mem_cons.1 hv with rfl | hv
    · exact h1.trans (min_le_right _ _)
    · exact h2 v hv

theorem npMin_mem (z0 : ℝ) (z : List ℝ) : npMin z0 z ∈ z0 :: z := by
  unfold npMin
  induction z generalizing z0 with
  | nil => simp
  | cons a z ih =>
    rw [List.foldl_cons]
    rcases List.mem_cons.1 (ih (min z0 a)) with h | h
    · rw [h]
      rcases min_choice z0 a with h | h <;> rw [h] <;> simp
    · exact List.mem_cons_of_mem _ (List.mem_cons_of_mem _ h)

/-- **C67 (`contour`).** For every non-empty grid: a given minimum is rejected with `ValueError` exactly
if some grid value lies below it; otherwise the plotted values are the grid values minus the minimum,
none of them negative; without a given minimum the smallest plotted value is exactly zero. -/
theorem C67_contour (z0 : ℝ) (z : List ℝ) (m : ℝ) :
    (contourZ z0 z (some m) = .error .valueError ↔ ∃ v ∈ z0 :: z, v < m) ∧
    (∀ r, contourZ z0 z (some m) = .ok r → r = (z0 :: z).map (fun v => v - m) ∧ ∀ v ∈ r, 0 ≤ v) ∧
    (∃ r m', contourZ z0 z none = .ok r ∧ r = (z0 :: z).map (fun v => v - m') ∧ (∀ v ∈ r, 0 ≤ v) ∧
      (0 : ℝ) ∈ r) := by
  obtain ⟨l1, l2⟩ := npMin_le z0 z
  have lall : ∀ v ∈ z0 :: z, npMin z0 z ≤ v := by
    intro v hv
    rcases List.mem_cons.1 hv with rfl | hv
    · exact l1
    · exact l2 v hv
  refine ⟨?_, ?_, ?_⟩
  · unfold contourZ
    simp only
    split_ifs with h
    · simp only [true_iff]
      exact ⟨_, npMin_mem z0 z, h⟩
    · simp only [false_iff, not_exists, not_and, not_lt, reduceCtorEq]
      intro v hv
      exact (not_lt.1 h).trans (lall v hv)
  · intro r hr
    unfold contourZ at hr
    simp only at hr
    split_ifs at hr with h
    cases hr
    refine ⟨rfl, fun v hv => ?_⟩
    obtain ⟨u, hu, rfl⟩ := List.mem_map.1 hv
    linarith [lall u hu, not_lt.1 h]
  · refine ⟨_, npMin z0 z, rfl, rfl, fun v hv => ?_, ?_⟩
    · obtain ⟨u, hu, rfl⟩ := List.mem_map.1 hv
      linarith [lall u hu]
    · exact List.mem_map.2 ⟨_, npMin_mem z0 z, sub_self _⟩

/-! ## Grids -/

theorem linspace_length (a b : ℝ) (n : Nat) : (linspace a b n).length = n := by simp [linspace]

theorem axis_length {scale : String} {a b : ℝ} {n : Nat} {l} (h : axis scale a b n = .ok l) :
    l.length = n := by
  unfold axis at h
  split_ifs at h
  · cases h; exact linspace_length a b n
  · cases h; simp [logspace, linspace_length]

theorem chunk_flatten {α : Type} (n : Nat) (ll : List (List α)) (h : ∀ l ∈ ll, l.length = n) :
    chunk n ll.length ll.flatten = ll := by
  induction ll with
  | nil => rfl
  | cons l ll ih =>
    have hl := h l (List.mem_cons_self ..)
    rw [List.length_cons, List.flatten_cons]
    unfold chunk
    rw [List.take_append_of_le_length (le_of_eq hl.symm), ← hl, List.take_length, List.drop_append_length, hl,
      ih (fun x hx => h x (List.mem_cons_of_mem _ hx))]

theorem parallelZ_eq (f : ℝ × ℝ → ℝ) (xs ys : List ℝ) (n : Nat) (hx : xs.length = n) (hy : ys.length = n) :
    parallelZ f xs ys n = serialZ f xs ys := by
  unfold parallelZ serialZ
  rw [List.map_flatten]
  have hlen : ((meshgrid xs ys).map (List.map f)).length = n := by simp [meshgrid, hy]
  have := chunk_flatten n ((meshgrid xs ys).map (List.map f)) (by
    intro l hl
    obtain ⟨r, hr, rfl⟩ := List.mem_map.1 hl
    obtain ⟨y, -, rfl⟩ := List.mem_map.1 hr
    simp [hx])
  rw [hlen] at this
  rw [this, List.map_map]
  apply List.map_congr_left
  intro row _
  simp [Function.comp]

/-- **C67 (contour data).** Whatever the number of threads, scales and steps, the value in row `i` and
column `j` is `-2 log L` at the `j`-th x and `i`-th y value; in particular the parallel and the serial
computation agree. -/
theorem C67_contour_data (f : ℝ × ℝ → ℝ) (xMin xMax yMin yMax : ℝ) (xscale yscale : String)
    (steps threads : Nat) (g z) (h : contourData f xMin xMax yMin yMax xscale yscale steps threads = .ok (g, z)) :
    ∃ xs ys, axis xscale xMin xMax steps = .ok xs ∧ axis yscale yMin yMax steps = .ok ys ∧
      xs.length = steps ∧ ys.length = steps ∧
      (∀ i j : Nat, ∀ x y, xs[j]? = some x → ys[i]? = some y →
        (z[i]?.bind fun row => row[j]?) = some (-2 * f (x, y)) ∧
        (g[i]?.bind fun row => row[j]?) = some (x, y)) ∧
      contourData f xMin xMax yMin yMax xscale yscale steps 1 = .ok (g, z) := by
  unfold contourData at h
  obtain ⟨xs, hx, h⟩ := bind_eq_ok h
  obtain ⟨ys, hy, h⟩ := bind_eq_ok h
  have lx := axis_length hx
  have ly := axis_length hy
  have hz : (if threads = 1 then serialZ f xs ys else parallelZ f xs ys steps) = serialZ f xs ys := by
    split_ifs
    · rfl
    · exact parallelZ_eq f xs ys steps lx ly
  rw [hz] at h
  cases h
  refine ⟨xs, ys, hx, hy, lx, ly, ?_, ?_⟩
  · intro i j x y hx' hy'
    constructor
    · simp [serialZ, meshgrid, hx', hy']
    · simp [meshgrid, hx', hy']
  · unfold contourData
    rw [hx, ok_bind_eq, hy, ok_bind_eq, if_pos rfl]

/-- **C67 (axes).** For at least two steps, both kinds of axis start and end at the given boundaries, and
every point lies between them; a logarithmic axis raises `ValueError` exactly if a boundary is not
positive, an unknown scale always. -/
theorem C67_axis (a b : ℝ) (n : Nat) (hn : 2 ≤ n) (hab : a ≤ b) :
    (∃ l, axis "linear" a b n = .ok l ∧ l[0]? = some a ∧ l[n - 1]? = some b ∧ ∀ x ∈ l, a ≤ x ∧ x ≤ b) ∧
    (0 < a → ∃ l, axis "log" a b n = .ok l ∧ l[0]? = some a ∧ l[n - 1]? = some b ∧
      ∀ x ∈ l, a ≤ x ∧ x ≤ b) ∧
    (a ≤ 0 → axis "log" a b n = .error .valueError) ∧
    (∀ s, s ≠ "linear" → s ≠ "log" → axis s a b n = .error .valueError) := by
  have hn1 : n ≠ 1 := by omega
  have hr : (0 : ℝ) < n - 1 := by
    have : (2 : ℝ) ≤ n := by exact_mod_cast hn
    linarith
  have lin : ∀ a b : ℝ, a ≤ b → (linspace a b n)[0]? = some a ∧ (linspace a b n)[n - 1]? = some b ∧
      ∀ x ∈ linspace a b n, a ≤ x ∧ x ≤ b := by
    intro a b hab
    refine ⟨?_, ?_, ?_⟩
    · rw [linspace, List.getElem?_map, List.getElem?_range (by omega)]
      simp [hn1]
    · rw [linspace, List.getElem?_map, List.getElem?_range (by omega)]
      simp only [Option.map_some, hn1, if_false, Option.some.injEq]
      rw [Nat.cast_sub (by omega)]
      push_cast
      field_simp
      ring
    · intro x hx
      obtain ⟨i, hi, rfl⟩ := List.mem_map.1 hx
      rw [List.mem_range] at hi
      rw [if_neg hn1]
      have hi' : (i : ℝ) ≤ n - 1 := by
        have : i + 1 ≤ n := hi
        have : (i : ℝ) + 1 ≤ n := by exact_mod_cast this
        linarith
      have hd : 0 ≤ (b - a) / (n - 1) := div_nonneg (by linarith) hr.le
      constructor
      · have := mul_nonneg (Nat.cast_nonneg (α := ℝ) i) hd
        linarith
      · have := mul_le_mul_of_nonneg_right hi' hd
        rw [mul_div_cancel₀ _ hr.ne'] at this
        linarith
  refine ⟨⟨_, by unfold axis; rw [if_pos rfl], lin a b hab⟩, fun ha => ?_, fun ha => ?_, fun s h1 h2 => ?_⟩
  · have hb : 0 < b := by linarith
    obtain ⟨q1, q2, q3⟩ := lin (Real.logb 10 a) (Real.logb 10 b) (Real.logb_le_logb_of_le (by norm_num) ha hab)
    refine ⟨logspace a b n, ?_, ?_, ?_, ?_⟩
    · unfold axis
      rw [if_neg (by decide), if_pos rfl, if_neg (by push Not; exact ⟨ha, hb⟩)]
    · unfold logspace
      rw [List.getElem?_map, q1]
      simp [Real.rpow_logb (by norm_num : (0:ℝ) < 10) (by norm_num) ha]
    · unfold logspace
      rw [List.getElem?_map, q2]
      simp [Real.rpow_logb (by norm_num : (0:ℝ) < 10) (by norm_num) hb]
    · intro x hx
      obtain ⟨e, he, rfl⟩ := List.mem_map.1 hx
      obtain ⟨e1, e2⟩ := q3 e he
      have ea := Real.rpow_logb (by norm_num : (0:ℝ) < 10) (by norm_num) ha
      have eb := Real.rpow_logb (by norm_num : (0:ℝ) < 10) (by norm_num) hb
      constructor
      · calc a = (10:ℝ) ^ Real.logb 10 a := ea.symm
          _ ≤ 10 ^ e := Real.rpow_le_rpow_of_exponent_le (by norm_num) e1
      · calc (10:ℝ) ^ e ≤ 10 ^ Real.logb 10 b := Real.rpow_le_rpow_of_exponent_le (by norm_num) e2
          _ = b := eb
  · unfold axis
    rw [if_neg (by decide), if_pos rfl, if_pos (Or.inl ha)]
  · unfold axis
    rw [if_neg h1, if_neg h2]

/-! ## `bin_plot_exp` -/

/-- Does the user want this bin (given at most one of the two lists)? (Specification.) -/
def wanted (inc exc : Option (List (ℝ × ℝ))) (b : ℝ × ℝ) : Prop :=
  (∀ l, inc = some l → b ∈ l) ∧ (∀ l, exc = some l → b ∉ l)

/-- Is this measurement considered? (Specification.) -/
def considered (incM : Option (List String)) (m : Meas) : Prop := ∀ l, incM = some l → m.name ∈ l

open Classical in
theorem keptBins_eq (inc exc : Option (List (ℝ × ℝ))) (h : inc = none ∨ exc = none)
    (l : List ((ℝ × ℝ) × (ℝ × ℝ × ℝ))) :
    keptBins inc exc l = .ok (l.filter fun e => decide (wanted inc exc e.1)) := by
  induction l with
  | nil => rfl
  | cons e l ih =>
    unfold keptBins
    have hk : keepBin inc exc e.1 = .ok (decide (wanted inc exc e.1)) := by
      unfold keepBin wanted
      rcases h with rfl | rfl
      · cases exc <;> simp
      · cases inc <;> simp
    rw [hk, ok_bind_eq, ih, ok_bind_eq]
    by_cases hw : wanted inc exc e.1 <;> simp [List.filter_cons, hw]

/-- What a measurement contributes: its wanted bins if it is considered. (Specification.) -/
noncomputable def contrib (incM : Option (List String)) (inc exc : Option (List (ℝ × ℝ))) (m : Meas) :
    List ((ℝ × ℝ) × (ℝ × ℝ × ℝ)) := by
  classical
  exact if considered incM m then m.bins.filter fun e => decide (wanted inc exc e.1) else []

/-- One step in terms of the contribution of the measurement. -/
theorem binStep_eq (divide : Bool) (incM : Option (List String)) (inc exc : Option (List (ℝ × ℝ)))
    (h : inc = none ∨ exc = none) (sf : ℝ) (userLabel : Option String) (s : BinSt) (m : Meas) :
    ∃ y, binStep divide incM inc exc sf userLabel s m = .ok
      (if contrib incM inc exc m = [] then { s with y := y }
       else ⟨(labelFor userLabel s.done m.experiment).2, s.bins ++ (contrib incM inc exc m).map Prod.fst,
         s.drawn ++ [⟨(contrib incM inc exc m).map (point divide sf),
           (labelFor userLabel s.done m.experiment).1⟩], y⟩) := by
  classical
  unfold binStep contrib
  by_cases hm : (incM.isSome ∧ m.name ∉ incM.getD []) ∨ m.bins = []
  · rw [if_pos hm]
    refine ⟨s.y, ?_⟩
    have : (if considered incM m then m.bins.filter fun e => decide (wanted inc exc e.1) else []) = [] := by
      rcases hm with ⟨h1, h2⟩ | h1
      · rw [if_neg]
        intro hc
        obtain ⟨l, rfl⟩ := Option.isSome_iff_exists.1 h1
        exact h2 (hc l rfl)
      · rw [h1]; simp
    rw [if_pos this]
  · rw [if_neg hm]
    push Not at hm
    have hc : considered incM m := by
      intro l hl
      subst hl
      exact hm.1 rfl
    rw [keptBins_eq inc exc h, ok_bind_eq, if_pos hc]
    simp only
    by_cases he : (m.bins.filter fun e => decide (wanted inc exc e.1)) = []
    · rw [if_pos he]; exact ⟨some [], by rw [if_pos he]⟩
    · rw [if_neg he]; exact ⟨some _, by rw [if_neg he]⟩

/-- The label list stays duplicate-free and contains exactly the experiments drawn so far. (Specification.) -/
structure Inv (s : BinSt) (exps : List String) : Prop where
  nodup : (s.drawn.filterMap ErrBar.label).Nodup
  labels : s.drawn.filterMap ErrBar.label = s.done
  exps : ∀ e, e ∈ s.done ↔ e ∈ exps

/-- **C67 (`bin_plot_exp`: bins and points).** For every list of measurements and every filter (not both
include and exclude): if the function returns, the bins returned are, in order, exactly the wanted bins of
the considered measurements, and the error bars drawn are, measurement by measurement, their data points;
measurements without wanted bins draw nothing. -/
theorem C67_bin_plot_points (ms : List Meas) (divide : Bool) (incM : Option (List String))
    (inc exc : Option (List (ℝ × ℝ))) (h : inc = none ∨ exc = none) (sf : ℝ) (userLabel : Option String)
    (drawn y bins) (hr : binPlotExp 2 ms divide incM inc exc sf userLabel = .ok (drawn, y, bins)) :
    bins = (ms.flatMap fun m => (contrib incM inc exc m).map Prod.fst) ∧
    drawn.map ErrBar.points = ((ms.map (contrib incM inc exc)).filter (· ≠ [])).map
      (List.map (point divide sf)) := by
  unfold binPlotExp at hr
  rw [if_neg (by simp)] at hr
  obtain ⟨s, hs, hr⟩ := bind_eq_ok hr
  have gen : ∀ (ms : List Meas) (s s' : BinSt),
      binLoop divide incM inc exc sf userLabel s ms = .ok s' →
      s'.bins = s.bins ++ (ms.flatMap fun m => (contrib incM inc exc m).map Prod.fst) ∧
      s'.drawn.map ErrBar.points = s.drawn.map ErrBar.points ++
        ((ms.map (contrib incM inc exc)).filter (· ≠ [])).map (List.map (point divide sf)) := by
    intro ms
    induction ms with
    | nil => intro s s' h; cases h; simp
    | cons m ms ih =>
      intro s s' hl
      unfold binLoop at hl
      obtain ⟨y, hy⟩ := binStep_eq divide incM inc exc h sf userLabel s m
      rw [hy, ok_bind_eq] at hl
      obtain ⟨i1, i2⟩ := ih _ _ hl
      by_cases hc : contrib incM inc exc m = []
      · rw [if_pos hc] at i1 i2
        rw [i1, i2]
        simp [hc]
      · rw [if_neg hc] at i1 i2
        rw [i1, i2]
        simp [hc]
  obtain ⟨g1, g2⟩ := gen ms _ _ hs
  cases hy : s.y with
  | none => rw [hy] at hr; cases hr
  | some y' =>
    rw [hy] at hr
    cases hr
    exact ⟨by simpa using g1, by simpa using g2⟩

/-- **C67 (`bin_plot_exp`: legend).** If the user gives no label, the labels drawn are, without
repetition, exactly the experiments of the measurements that draw something, so no experiment appears
twice in the legend and none is missing. -/
theorem C67_bin_plot_labels (ms : List Meas) (divide : Bool) (incM : Option (List String))
    (inc exc : Option (List (ℝ × ℝ))) (h : inc = none ∨ exc = none) (sf : ℝ)
    (drawn y bins) (hr : binPlotExp 2 ms divide incM inc exc sf none = .ok (drawn, y, bins)) :
    (drawn.filterMap ErrBar.label).Nodup ∧
    ∀ e, e ∈ drawn.filterMap ErrBar.label ↔
      ∃ m ∈ ms, m.experiment = e ∧ contrib incM inc exc m ≠ [] := by
  unfold binPlotExp at hr
  rw [if_neg (by simp)] at hr
  obtain ⟨s, hs, hr⟩ := bind_eq_ok hr
  have gen : ∀ (ms : List Meas) (s s' : BinSt) (exps : List String), Inv s exps →
      binLoop divide incM inc exc sf none s ms = .ok s' →
      ∃ exps', Inv s' exps' ∧ ∀ e, e ∈ exps' ↔ e ∈ exps ∨
        ∃ m ∈ ms, m.experiment = e ∧ contrib incM inc exc m ≠ [] := by
    intro ms
    induction ms with
    | nil => intro s s' exps hi h; cases h; exact ⟨exps, hi, by simp⟩
    | cons m ms ih =>
      intro s s' exps hi hl
      unfold binLoop at hl
      obtain ⟨y, hy⟩ := binStep_eq divide incM inc exc h sf none s m
      rw [hy, ok_bind_eq] at hl
      by_cases hc : contrib incM inc exc m = []
      · rw [if_pos hc] at hl
        obtain ⟨exps', h1, h2⟩ := ih { s with y := y } _ exps ⟨hi.nodup, hi.labels, hi.exps⟩ hl
        refine ⟨exps', h1, fun e => ?_⟩
        rw [h2]
        simp [hc]
      · rw [if_neg hc] at hl
        have hinv : Inv ⟨(labelFor none s.done m.experiment).2,
            s.bins ++ (contrib incM inc exc m).map Prod.fst,
            s.drawn ++ [⟨(contrib incM inc exc m).map (point divide sf),
              (labelFor none s.done m.experiment).1⟩], y⟩ (m.experiment :: exps) := by
          by_cases hd : m.experiment ∈ s.done
          · have hl : labelFor none s.done m.experiment = (none, s.done) := by
              unfold labelFor; simp [hd]
            rw [hl]
            refine ⟨?_, ?_, fun e => ?_⟩
            · simpa using hi.nodup
            · simpa using hi.labels
            · rw [hi.exps, List.mem_cons]
              constructor
              · exact Or.inr
              · rintro (rfl | h)
                · exact (hi.exps _).1 hd
                · exact h
          · have hl : labelFor none s.done m.experiment = (some m.experiment, s.done ++ [m.experiment]) := by
              unfold labelFor; simp [hd]
            rw [hl]
            refine ⟨?_, ?_, fun e => ?_⟩
            · simp only [List.filterMap_append, List.filterMap_cons, List.filterMap_nil]
              rw [List.nodup_append]
              refine ⟨hi.nodup, by simp, ?_⟩
              intro a ha b hb
              simp only [List.mem_cons, List.not_mem_nil, or_false] at hb
              subst hb
              rintro rfl
              rw [hi.labels] at ha
              exact hd ha
            · simp [hi.labels]
            · simp only [List.mem_append, List.mem_cons, List.not_mem_nil, or_false, hi.exps]
              tauto
        obtain ⟨exps', h1, h2⟩ := ih _ _ _ hinv hl
        refine ⟨exps', h1, fun e => ?_⟩
        rw [h2]
        simp only [List.mem_cons, exists_eq_or_imp]
        constructor
        · rintro ((rfl | h) | h)
          · exact Or.inr (Or.inl ⟨rfl, hc⟩)
          · exact Or.inl h
          · exact Or.inr (Or.inr h)
        · rintro (h | ⟨rfl, -⟩ | h)
          · exact Or.inl (Or.inr h)
          · exact Or.inl (Or.inl rfl)
          · exact Or.inr h
  obtain ⟨exps', h1, h2⟩ := gen ms _ _ [] ⟨by simp, rfl, by simp⟩ hs
  cases hy : s.y with
  | none => rw [hy] at hr; cases hr
  | some y' =>
    rw [hy] at hr
    cases hr
    refine ⟨h1.nodup, fun e => ?_⟩
    rw [h1.labels, h1.exps, h2]
    simp

/-- **C67 (`bin_plot_exp`: both filters).** Giving both lists raises `ValueError` as soon as a considered
measurement has a bin, and an observable that does not have two arguments always. -/
theorem C67_bin_plot_errors (nargs : Nat) (ms : List Meas) (divide : Bool) (incM : Option (List String))
    (i e : List (ℝ × ℝ)) (sf : ℝ) (userLabel : Option String) :
    (nargs ≠ 2 → ∀ inc exc, binPlotExp nargs ms divide incM inc exc sf userLabel = .error .valueError) ∧
    ((∃ m ∈ ms, considered incM m ∧ m.bins ≠ []) →
      binPlotExp nargs ms divide incM (some i) (some e) sf userLabel = .error .valueError) := by
  constructor
  · intro h inc exc; unfold binPlotExp; rw [if_pos h]
  · intro hm
    unfold binPlotExp
    split_ifs with hn
    · rfl
    · have : ∀ (ms : List Meas) (s : BinSt), (∃ m ∈ ms, considered incM m ∧ m.bins ≠ []) →
          binLoop divide incM (some i) (some e) sf userLabel s ms = .error .valueError := by
        intro ms
        induction ms with
        | nil => rintro s ⟨m, hm, -⟩; cases hm
        | cons a ms ih =>
          rintro s ⟨m, hm, hc, hb⟩
          unfold binLoop
          by_cases ha : (incM.isSome ∧ a.name ∉ incM.getD []) ∨ a.bins = []
          · have : binStep divide incM (some i) (some e) sf userLabel s a = .ok s := by
              unfold binStep; rw [if_pos ha]
            rw [this, ok_bind_eq]
            apply ih
            rcases List.mem_cons.1 hm with rfl | hm
            · exfalso
              rcases ha with ⟨h1, h2⟩ | h1
              · obtain ⟨l, rfl⟩ := Option.isSome_iff_exists.1 h1
                exact h2 (hc l rfl)
              · exact hb h1
            · exact ⟨m, hm, hc, hb⟩
          · have : binStep divide incM (some i) (some e) sf userLabel s a = .error .valueError := by
              unfold binStep
              rw [if_neg ha]
              push Not at ha
              obtain ⟨b, l, hbl⟩ := List.exists_cons_of_ne_nil ha.2
              rw [hbl]
              rfl
            rw [this]; rfl
      rw [this ms _ hm]; rfl

/-- The returned `y` belongs to the last matching measurement only, while the returned bins are those of
all measurements: the two lists need not have the same length. -/
theorem C67_bin_plot_y_last_only :
    ∃ ms drawn y bins, binPlotExp 2 ms false none none none 1 none = .ok (drawn, y, bins) ∧
      y.length = 1 ∧ bins.length = 3 := by
  have h : ∃ drawn y bins, binPlotExp 2 [⟨"m1", "LHCb", [((1, 2), (5, 1, 1)), ((2, 3), (6, 1, 1))]⟩,
      ⟨"m2", "Belle", [((1, 3), (7, 2, 2))]⟩] false none none none 1 none = .ok (drawn, y, bins) ∧
      y.length = 1 ∧ bins.length = 3 := by
    unfold binPlotExp
    rw [if_neg (by simp)]
    simp [binLoop, binStep, keptBins, keepBin, ok_bind_eq, point, labelFor]
  exact ⟨_, h⟩

/-- No measurement of the observable: `UnboundLocalError`. -/
theorem C67_bin_plot_none (divide : Bool) (incM inc exc) (sf : ℝ) (userLabel : Option String) (ms : List Meas)
    (h : ∀ m ∈ ms, m.bins = []) :
    binPlotExp 2 ms divide incM inc exc sf userLabel = .error .unboundLocalError := by
  unfold binPlotExp
  rw [if_neg (by simp)]
  have : ∀ (ms : List Meas) (s : BinSt), (∀ m ∈ ms, m.bins = []) →
      binLoop divide incM inc exc sf userLabel s ms = .ok s := by
    intro ms
    induction ms with
    | nil => intro s _; rfl
    | cons m ms ih =>
      intro s h
      unfold binLoop
      have : binStep divide incM inc exc sf userLabel s m = .ok s := by
        unfold binStep; rw [if_pos (Or.inr (h m (List.mem_cons_self ..)))]
      rw [this, ok_bind_eq, ih s (fun x hx => h x (List.mem_cons_of_mem _ hx))]
  rw [this ms _ h]
  rfl

end Verif.Plots
