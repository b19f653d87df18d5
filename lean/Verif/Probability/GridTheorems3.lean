import Verif.Probability.GridTheorems2
/-!
# C149: removing dimensions
-/
set_option linter.unusedSectionVars false
set_option linter.unusedSimpArgs false
set_option linter.unusedVariables false
namespace Verif.Grid
open Verif.Py Verif.Probability
open Verif.DistDict (evenCheck)

/-! ## Specification -/

/-- `v` is the largest value of the PDF on the grid points of `d` whose remaining indices are `k`. (Specification.) -/
def IsProfile (d : MNum) (l : List ℕ) (k : List ℕ) (v : ℝ) : Prop :=
  (∀ i, IsIndex d.shape i → dropAt l i = k → d.yNorm i ≤ v) ∧ ∃ i, IsIndex d.shape i ∧ dropAt l i = k ∧ v = d.yNorm i

/-! ## Lemmas -/

/-- `dropAt` with positions counted from `n`. (Specification.) -/
def dropFrom {α : Type} (n : ℕ) (ex : List ℕ) (l : List α) : List α := ((l.zipIdx n).filter fun e => decide (e.2 ∉ ex)).map Prod.fst

theorem dropFrom_cons {α : Type} (n : ℕ) (ex : List ℕ) (a : α) (l : List α) :
    dropFrom n ex (a :: l) = if n ∈ ex then dropFrom (n + 1) ex l else a :: dropFrom (n + 1) ex l := by
  unfold dropFrom
  rw [List.zipIdx_cons]
  by_cases h : n ∈ ex
  · rw [if_pos h, List.filter_cons_of_neg (by simpa using h)]
  · rw [if_neg h, List.filter_cons_of_pos (by simpa using h), List.map_cons]

theorem dropFrom_map {α β : Type} (f : α → β) (n : ℕ) (ex : List ℕ) (l : List α) : dropFrom n ex (l.map f) = (dropFrom n ex l).map f := by
  induction l generalizing n with
  | nil => rfl
  | cons a l ih =>
    rw [List.map_cons, dropFrom_cons, dropFrom_cons]
    split_ifs
    · exact ih _
    · rw [ih, List.map_cons]

theorem dropFrom_mem {α : Type} {n : ℕ} {ex : List ℕ} {l : List α} {a : α} (h : a ∈ dropFrom n ex l) : a ∈ l := by
  induction l generalizing n with
  | nil => simp [dropFrom] at h
  | cons b l ih =>
    rw [dropFrom_cons] at h
    split_ifs at h
    · exact List.mem_cons_of_mem _ (ih h)
    · rw [List.mem_cons] at h
      rcases h with rfl | h
      · simp
      · exact List.mem_cons_of_mem _ (ih h)

theorem dropFrom_index {n : ℕ} {ex shape k : List ℕ} (h : IsIndex shape k) : IsIndex (dropFrom n ex shape) (dropFrom n ex k) := by
  unfold IsIndex at h ⊢
  induction h generalizing n with
  | nil => exact .nil
  | cons h1 _ ih =>
    rw [dropFrom_cons, dropFrom_cons]
    split_ifs
    · exact ih
    · exact .cons h1 ih

theorem dropFrom_surj {n : ℕ} {ex shape k' : List ℕ} (hpos : ∀ m ∈ shape, 0 < m) (h : IsIndex (dropFrom n ex shape) k') :
    ∃ k, IsIndex shape k ∧ dropFrom n ex k = k' := by
  unfold IsIndex at h ⊢
  induction shape generalizing n k' with
  | nil =>
    have : dropFrom n ex ([] : List ℕ) = [] := rfl
    rw [this] at h
    cases h
    exact ⟨[], .nil, rfl⟩
  | cons m ms ih =>
    rw [dropFrom_cons] at h
    split_ifs at h with hn
    · obtain ⟨k, hk, e⟩ := ih (fun x hx => hpos x (by simp [hx])) h
      exact ⟨0 :: k, .cons (hpos m (by simp)) hk, by rw [dropFrom_cons, if_pos hn, e]⟩
    · cases h with
      | cons h1 h2 =>
        obtain ⟨k, hk, e⟩ := ih (fun x hx => hpos x (by simp [hx])) h2
        exact ⟨_ :: k, .cons h1 hk, by rw [dropFrom_cons, if_neg hn, e]⟩

theorem dropAt_length {α : Type} (l : List ℕ) (xs : List α) (hn : l.Nodup) (hr : ∀ e ∈ l, e < xs.length) :
    (dropAt l xs).length + l.length = xs.length := by
  unfold dropAt
  rw [List.length_map]
  have h1 : (xs.zipIdx.filter fun e => decide (e.2 ∉ l)).length = ((List.range xs.length).filter fun i => decide (i ∉ l)).length := by
    have : List.range xs.length = xs.zipIdx.map Prod.snd := by
      rw [List.zipIdx_eq_zip_range', List.map_snd_zip (by simp), List.range_eq_range']
    rw [this, List.filter_map, List.length_map]
    rfl
  have h2 : l.length = ((List.range xs.length).filter fun i => !decide (i ∉ l)).length := by
    apply List.Perm.length_eq
    rw [List.perm_ext_iff_of_nodup hn (List.nodup_range.filter _)]
    intro a
    simp only [List.mem_filter, List.mem_range, Bool.not_eq_true', decide_eq_false_iff_not, not_not]
    exact ⟨fun h => ⟨hr a h, h⟩, fun h => h.2⟩
  rw [h1, h2, ← List.length_eq_length_filter_add, List.length_range]

theorem amax_spec {l : List ℝ} (h : l ≠ []) : (∀ v ∈ l, v ≤ amax l) ∧ amax l ∈ l := by
  cases l with
  | nil => exact absurd rfl h
  | cons a r => exact foldl_max_ge a r

theorem profile_spec {d : MNum} (hg : IsGrid d.xi) (l : List ℕ) {k' : List ℕ} (hk : IsIndex ((dropAt l d.xi).map List.length) k') :
    IsProfile d l k' (amaxAxes d.shape l d.yNorm k') := by
  have hk2 : IsIndex (dropFrom 0 l d.shape) k' := by
    rw [MNum.shape, dropFrom_map]; exact hk
  obtain ⟨k, k1, k2⟩ := dropFrom_surj (fun m hm => by
    unfold MNum.shape at hm
    rw [List.mem_map] at hm
    obtain ⟨x, hx, rfl⟩ := hm
    have := (hg.2 x hx).1
    omega) hk2
  have hmem : ∀ i, i ∈ (indices d.shape).filter (fun i => decide (dropAt l i = k')) ↔ IsIndex d.shape i ∧ dropAt l i = k' := by
    intro i
    rw [List.mem_filter, mem_indices, decide_eq_true_eq]
  have hne : ((indices d.shape).filter fun i => decide (dropAt l i = k')).map d.yNorm ≠ [] := by
    have := (hmem k).2 ⟨k1, k2⟩
    intro he
    rw [List.map_eq_nil_iff] at he
    rw [he] at this
    simp at this
  obtain ⟨h1, h2⟩ := amax_spec hne
  refine ⟨fun i hi hik => h1 _ (List.mem_map.2 ⟨i, (hmem i).2 ⟨hi, hik⟩, rfl⟩), ?_⟩
  rw [List.mem_map] at h2
  obtain ⟨i, hi, e⟩ := h2
  exact ⟨i, ((hmem i).1 hi).1, ((hmem i).1 hi).2, e.symm⟩

theorem profile_unique {d : MNum} {l k : List ℕ} {u v : ℝ} (hu : IsProfile d l k u) (hv : IsProfile d l k v) : u = v := by
  obtain ⟨i, i1, i2, i3⟩ := hu.2
  obtain ⟨j, j1, j2, j3⟩ := hv.2
  exact le_antisymm (by rw [i3]; exact hv.1 i i1 i2) (by rw [j3]; exact hu.1 j j1 j2)

theorem yNorm_nonneg {d : MNum} (hg : IsGrid d.xi) (hd : IsDensity d) {k : List ℕ} (hk : IsIndex d.shape k) : 0 ≤ d.yNorm k :=
  (C149_normalised d hg hd).1 k hk

/-! ## Theorems -/

/-- **C149 (removing dimensions)** If at least two dimensions are left, `reduce_dimension` returns a distribution on the remaining
axes, whose values are the largest values of the PDF along the removed ones (the profile); the central value loses the
entries of the removed dimensions, and `logpdf` with `exclude` is the log-PDF of this distribution. -/
theorem C149_reduce (xi : List (List ℝ)) (y : Table) (c : Option (List ℝ)) (d : MNum) (h : mkMNum xi y c = .ok d) (hd : IsDensity d)
    (l : List ℕ) (hne : l ≠ []) (hr : ∀ e ∈ l, e < d.xi.length) (hn : l.Nodup) (h2 : l.length + 2 ≤ d.xi.length) :
    ∃ d', d.reduce (.seq l) = .ok (.multi d') ∧ d'.xi = dropAt l d.xi ∧ d'.central = dropAt l d.central ∧ IsGrid d'.xi ∧ IsDensity d' ∧
      (∀ k, IsIndex d'.shape k → IsProfile d l k (d'.y k)) ∧ ∀ x, d.logpdfEx x (.seq l) = d'.logpdf x := by
  obtain ⟨h1, -, -, h4, -, -⟩ := mkMNum_ok h
  have hlen : 2 ≤ (dropAt l d.xi).length := by have := dropAt_length l d.xi hn hr; omega
  have hg' : IsGrid (dropAt l d.xi) :=
    ⟨by intro he; rw [he] at hlen; simp at hlen, fun x hx => h1.2 x (dropFrom_mem (n := 0) (ex := l) hx)⟩
  have he : ∀ x ∈ dropAt l d.xi, evenCheck x = .ok () := fun x hx => h4 x (dropFrom_mem (n := 0) (ex := l) hx)
  have hred : d.reduce (.seq l) = .ok (.multi ⟨dropAt l d.xi, amaxAxes d.shape l d.yNorm, dropAt l d.central,
      some ((dropAt l d.xi).map fun x => x.headD 0, (dropAt l d.xi).map fun x => x.getLastD 0)⟩) := by
    unfold MNum.reduce
    rw [if_neg (by simp [Exclude.falsy, hne]), if_neg (by
      rintro ⟨e, he, hle⟩
      have := hr e he
      omega), if_neg (not_not.2 (show (Exclude.seq l).toList.Nodup from hn))]
    unfold ofAxes
    split
    · rename_i heq
      rw [show dropAt (Exclude.seq l).toList d.xi = dropAt l d.xi from rfl] at heq
      rw [heq] at hlen
      simp at hlen
    · rw [show (Exclude.seq l).toList = l from rfl, mkMNum_of hg' he]
      rfl
  refine ⟨_, hred, rfl, rfl, hg', ⟨fun k hk => ?_, ?_⟩, fun k hk => profile_spec h1 l hk, fun x => ?_⟩
  · obtain ⟨i, hi, _, e⟩ := (profile_spec h1 l hk).2
    show 0 ≤ amaxAxes d.shape l d.yNorm k
    rw [e]; exact yNorm_nonneg h1 hd hi
  · obtain ⟨k, hk, hpos⟩ := hd.2
    have hk' : IsIndex ((dropAt l d.xi).map List.length) (dropAt l k) := by
      have := dropFrom_index (n := 0) (ex := l) hk
      rw [MNum.shape, dropFrom_map] at this
      exact this
    refine ⟨dropAt l k, hk', lt_of_lt_of_le ?_ ((profile_spec h1 l hk').1 k hk rfl)⟩
    unfold MNum.yNorm
    have := total_pos hd
    have := binVolume_pos h1
    positivity
  · unfold MNum.logpdfEx
    simp only
    rw [hred]
    rfl

/-- **C149 (one dimension left)** If one dimension is left, the result is a one-dimensional numerical distribution on its axis,
tabulating the profile, with the corresponding central value; it is refused if that is not within the axis. -/
theorem C149_reduce_univariate (xi : List (List ℝ)) (y : Table) (c : Option (List ℝ)) (d : MNum) (h : mkMNum xi y c = .ok d)
    (l : List ℕ) (hne : l ≠ []) (hr : ∀ e ∈ l, e < d.xi.length) (hn : l.Nodup) (h2 : l.length + 1 = d.xi.length)
    (x : List ℝ) (hx : dropAt l d.xi = [x]) (v : ℝ) (hv : dropAt l d.central = [v]) :
    ((x.headD 0 ≤ v ∧ v ≤ x.getLastD 0) → ∃ u : Num ℝ, d.reduce (.seq l) = .ok (.uni u) ∧ u.x = x ∧ u.central = v ∧ u.y.length = x.length ∧
      (∀ i < x.length, IsProfile d l [i] (u.y.getD i 0)) ∧ ∀ t, d.logpdfEx [t] (.seq l) = .ok (logOf (u.pdf t))) ∧
    (¬ (x.headD 0 ≤ v ∧ v ≤ x.getLastD 0) → d.reduce (.seq l) = .error .valueError) := by
  obtain ⟨h1, -, -, h4, -, -⟩ := mkMNum_ok h
  have hmem : x ∈ d.xi := dropFrom_mem (n := 0) (ex := l) (by
    have : dropFrom 0 l d.xi = dropAt l d.xi := rfl
    rw [this, hx]; simp)
  obtain ⟨x2, x3⟩ := h1.2 x hmem
  have hl : (indices [x.length]) = (List.range x.length).map fun i => [i] := by
    simp [indices, List.map_eq_flatMap]
  have hred : d.reduce (.seq l) =
      Num.mk' x ((indices [x.length]).map (amaxAxes d.shape l d.yNorm)) (some v) >>= fun d => .ok (.uni d) := by
    unfold MNum.reduce
    rw [if_neg (by simp [Exclude.falsy, hne]), if_neg (by
      rintro ⟨e, he, hle⟩
      have := hr e he
      omega), if_neg (not_not.2 (show (Exclude.seq l).toList.Nodup from hn))]
    rw [show (Exclude.seq l).toList = l from rfl, hx, hv]
    rfl
  cases x with
  | nil => simp at x2
  | cons x0 r =>
    have hlast : (x0 :: r).getLast (by simp) = (x0 :: r).getLastD 0 := by
      rw [List.getLastD_eq_getLast?, List.getLast?_eq_getLast_of_ne_nil (by simp)]; rfl
    constructor
    · intro hin
      have hmk : Num.mk' (x0 :: r) ((indices [(x0 :: r).length]).map (amaxAxes d.shape l d.yNorm)) (some v) =
          finishNum (x0 :: r) ((indices [(x0 :: r).length]).map (amaxAxes d.shape l d.yNorm)) v := by
        unfold Num.mk' chooseCentral
        simp only
        rw [if_pos (by rw [hlast]; exact hin)]
        rfl
      rw [hmk] at hred
      unfold finishNum at hred
      simp only at hred
      rw [if_neg (by rw [hl]; simp)] at hred
      refine ⟨_, hred, rfl, rfl, by rw [hl]; simp, fun i hi => ?_, fun t => ?_⟩
      · have : ((indices [(x0 :: r).length]).map (amaxAxes d.shape l d.yNorm)).getD i 0 = amaxAxes d.shape l d.yNorm [i] := by
          rw [hl, List.getD_eq_getElem?_getD, List.map_map, List.getElem?_map, List.getElem?_range hi]
          rfl
        show IsProfile d l [i] (((indices [(x0 :: r).length]).map (amaxAxes d.shape l d.yNorm)).getD i 0)
        rw [this]
        apply profile_spec h1
        rw [hx]
        exact .cons hi .nil
      · unfold MNum.logpdfEx
        simp only
        rw [hred]
        rfl
    · intro hout
      rw [hred]
      unfold Num.mk' chooseCentral
      simp only
      rw [if_neg (by rw [hlast]; exact hout)]
      rfl

/-- **C149 (`exclude`)** Without dimensions to be removed the object itself is returned; a position that does not exist or is repeated
is an error. -/
theorem C149_reduce_arguments (d : MNum) (l : List ℕ) :
    d.reduce .none = .ok (.multi d) ∧ d.reduce (.seq []) = .ok (.multi d) ∧
    (∀ x, d.logpdfEx x .none = d.logpdf x ∧ d.logpdfEx x (.seq []) = d.logpdf x) ∧
    ((∃ e ∈ l, d.xi.length ≤ e) → d.reduce (.seq l) = .error .indexError) ∧
    ((∀ e ∈ l, e < d.xi.length) → ¬ l.Nodup → d.reduce (.seq l) = .error .valueError) := by
  refine ⟨rfl, rfl, fun x => ⟨rfl, rfl⟩, fun h => ?_, fun hr hn => ?_⟩
  · obtain ⟨e, he, hle⟩ := h
    unfold MNum.reduce
    rw [if_neg (by simp [Exclude.falsy]; rintro rfl; simp at he), if_pos ⟨e, he, hle⟩]
  · unfold MNum.reduce
    rw [if_neg (by simp [Exclude.falsy]; rintro rfl; simp at hn), if_neg, if_pos (show ¬ (Exclude.seq l).toList.Nodup from hn)]
    rintro ⟨e, he, hle⟩
    have := hr e he
    omega

/-- **C149 (a single integer)** A positive integer works like a list with this entry, but zero removes nothing: the object itself
is returned, and the log-PDF of the other coordinates is refused. -/
theorem C149_reduce_integer_partial (d : MNum) :
    (∀ i, d.reduce (.int (i + 1)) = d.reduce (.seq [i + 1])) ∧ d.reduce (.int 0) = .ok (.multi d) ∧
    ∀ x, x.length + 1 = d.xi.length → d.logpdfEx x (.int 0) = .error .valueError := by
  refine ⟨fun i => rfl, rfl, fun x hx => ?_⟩
  show d.logpdf x = _
  unfold MNum.logpdf
  rw [if_pos (by omega)]

/-! ## A concrete case -/

/-- A two by three table: constructor, normalisation. -/
theorem C149_nonvacuous : ∃ d, mkMNum [[0, 1], [0, 2, 4]] ⟨[2, 3], fun k => if k = [1, 2] then 3 else 1⟩ none = .ok d ∧ IsGrid d.xi ∧ IsDensity d ∧
    d.reduce (.int 0) = .ok (.multi d) := by
  have hev : ∀ x ∈ ([[0, 1], [0, 2, 4]] : List (List ℝ)), EvenAxis x := by
    intro x hx
    simp only [List.mem_cons, List.not_mem_nil, or_false] at hx
    rcases hx with rfl | rfl
    · exact ⟨0, 1, 2, by norm_num, by norm_num, by simp [List.range_succ]⟩
    · exact ⟨0, 2, 3, by norm_num, by norm_num, by simp [List.range_succ]; norm_num⟩
  obtain ⟨d, hd⟩ := C149_accepted [[0, 1], [0, 2, 4]] (fun k => if k = [1, 2] then 3 else 1) none (by simp) hev
  obtain ⟨h1, h2, h3, -⟩ := mkMNum_ok hd
  refine ⟨d, hd, h1, ⟨fun k _ => ?_, [1, 2], ?_, ?_⟩, rfl⟩
  · rw [h3]; dsimp only; split_ifs <;> norm_num
  · rw [h2]; exact .cons (by norm_num) (.cons (by norm_num) .nil)
  · rw [h3]; simp

/-- **C149 (the logarithm)** The log-PDF of the one coordinate that is left is minus infinity exactly where the PDF vanishes, and its
exponential is the PDF where it is positive. -/
theorem C149_log (d : MNum) (l : List ℕ) (u : Num ℝ) (hu : d.reduce (.seq l) = .ok (.uni u)) (t : ℝ) :
    (u.pdf t = 0 → d.logpdfEx [t] (.seq l) = .ok ⊥) ∧
    (0 < u.pdf t → ∃ v : ℝ, d.logpdfEx [t] (.seq l) = .ok (v : LogP) ∧ Real.exp v = u.pdf t) := by
  have e : d.logpdfEx [t] (.seq l) = .ok (logOf (u.pdf t)) := by
    unfold MNum.logpdfEx
    simp only
    rw [hu]
    rfl
  rw [e]
  refine ⟨fun h => ?_, fun h => ⟨Real.log (u.pdf t), ?_, Real.exp_log h⟩⟩
  · rw [logOf, if_pos h]
  · rw [logOf, if_neg h.ne']

end Verif.Grid
