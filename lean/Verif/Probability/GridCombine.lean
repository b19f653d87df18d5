import Verif.Probability.GridTheorems2
/-!
# C151: combination of multivariate distributions
-/
set_option linter.unusedSectionVars false
set_option linter.unusedSimpArgs false
set_option linter.unusedVariables false
namespace Verif.Grid
open Verif.Py Verif.Probability

/-! ## Specification -/

/-- A distribution of `n` variables with its support. (Specification.) -/
structure Supported (n : ℕ) (d : MNum) : Prop where
  grid : IsGrid d.xi
  dens : IsDensity d
  dim : d.xi.length = n
  supp : d.support = some (d.xi.map fun x => x.headD 0, d.xi.map fun x => x.getLastD 0)

/-- The lower and the upper end of an axis. (Specification.) -/
noncomputable def lower (d : MNum) (j : ℕ) : ℝ := (d.xi.getD j []).headD 0

/-- The upper end of an axis. (Specification.) -/
noncomputable def upper (d : MNum) (j : ℕ) : ℝ := (d.xi.getD j []).getLastD 0

/-- `d` has `n` axes, each of `m` equidistant points from `lo j` to `hi j`. (Specification.) -/
def Axes (d : MNum) (n m : ℕ) (lo hi : ℕ → ℝ) : Prop :=
  d.xi.length = n ∧ ∀ j < n, (d.xi.getD j []).length = m ∧ EvenAxis (d.xi.getD j []) ∧ lower d j = lo j ∧ upper d j = hi j

/-! ## Lemmas -/

theorem linspace_head {a b : ℝ} {m : ℕ} (hm : 2 ≤ m) : (linspace a b m).headD 0 = a := by
  obtain ⟨k, rfl⟩ : ∃ k, m = k + 1 := ⟨m - 1, by omega⟩
  simp [linspace, List.range_succ_eq_map]

theorem linspace_last {a b : ℝ} {m : ℕ} (hm : 2 ≤ m) : (linspace a b m).getLastD 0 = b := by
  obtain ⟨k, rfl⟩ : ∃ k, m = k + 1 := ⟨m - 1, by omega⟩
  have : (k : ℝ) ≠ 0 := by have : 0 < k := by omega
                           positivity
  unfold linspace
  rw [List.range_succ, List.map_append]
  simp only [List.map_cons, List.map_nil, List.getLastD_concat, Nat.cast_add, Nat.cast_one, add_sub_cancel_right]
  field_simp
  ring

theorem gridOf_getD {lo hi : List ℝ} {m j : ℕ} (hl : j < lo.length) (hh : j < hi.length) :
    (gridOf lo hi m).getD j [] = linspace (lo.getD j 0) (hi.getD j 0) m := by
  unfold gridOf
  simp [List.getD_eq_getElem?_getD, List.getElem?_zipWith, List.getElem?_eq_getElem hl, List.getElem?_eq_getElem hh]

theorem gridOf_length {lo hi : List ℝ} {m n : ℕ} (hl : lo.length = n) (hh : hi.length = n) : (gridOf lo hi m).length = n := by
  unfold gridOf; simp [hl, hh]

theorem gridOf_shape {lo hi : List ℝ} {m n : ℕ} (hl : lo.length = n) (hh : hi.length = n) :
    (gridOf lo hi m).map List.length = List.replicate n m := by
  rw [List.eq_replicate_iff]
  refine ⟨by rw [List.length_map, gridOf_length hl hh], fun b hb => ?_⟩
  obtain ⟨x, hx, rfl⟩ := List.mem_map.1 hb
  obtain ⟨j, hj, rfl⟩ := List.getElem_of_mem hx
  unfold gridOf
  simp [linspace]

theorem gridOf_even {lo hi : List ℝ} {m n : ℕ} (hl : lo.length = n) (hh : hi.length = n) (hm : 2 ≤ m)
    (hlt : ∀ j < n, lo.getD j 0 < hi.getD j 0) : ∀ x ∈ gridOf lo hi m, EvenAxis x := by
  intro x hx
  obtain ⟨j, hj, rfl⟩ := List.getElem_of_mem hx
  have hj' : j < n := by rw [gridOf_length hl hh] at hj; exact hj
  have e := gridOf_getD (m := m) (hl ▸ hj' : j < lo.length) (hh ▸ hj' : j < hi.length)
  rw [List.getD_eq_getElem?_getD, List.getElem?_eq_getElem hj] at e
  rw [show (gridOf lo hi m)[j] = _ from e]
  exact linspace_even (hlt j hj') hm

/-- A table of exponentials on this grid is accepted; its log-PDF is the exponent up to a constant. -/
theorem exp_table {lo hi : List ℝ} {m n : ℕ} (hn : 0 < n) (hl : lo.length = n) (hh : hi.length = n) (hm : 2 ≤ m)
    (hlt : ∀ j < n, lo.getD j 0 < hi.getD j 0) (L : List ℕ → ℝ) (y : List ℕ → ℝ)
    (hy : ∀ k, IsIndex (List.replicate n m) k → y k = Real.exp (L k)) (c : Option (List ℝ)) :
    ∃ d, mkMNum (gridOf lo hi m) ⟨List.replicate n m, y⟩ c = .ok d ∧ d.xi = gridOf lo hi m ∧ d.shape = List.replicate n m ∧ d.y = y ∧
      Axes d n m (fun j => lo.getD j 0) (fun j => hi.getD j 0) ∧ IsGrid d.xi ∧ IsDensity d ∧
      ∃ a : ℝ, ∀ k, IsIndex d.shape k → d.logpdf (gridPoint d.xi k) = .ok ((L k + a : ℝ) : LogP) := by
  have hne : gridOf lo hi m ≠ [] := by
    intro he
    have := gridOf_length (m := m) hl hh
    rw [he] at this; simp at this; omega
  obtain ⟨d, hd⟩ := C149_accepted (gridOf lo hi m) y c hne (gridOf_even hl hh hm hlt)
  rw [gridOf_shape hl hh] at hd
  have hg : IsGrid (gridOf lo hi m) := ⟨hne, fun x hx => ⟨(gridOf_even hl hh hm hlt x hx).spec.1, (gridOf_even hl hh hm hlt x hx).spec.2.1⟩⟩
  have hxi : d.xi = gridOf lo hi m := by
    have h2 := mkMNum_of hg (fun x hx => (gridOf_even hl hh hm hlt x hx).spec.2.2) y c
    rw [gridOf_shape hl hh] at h2
    rw [h2] at hd
    cases c with
    | some v => unfold finishM at hd; injection hd with hd; rw [← hd]
    | none =>
      unfold finishM at hd
      obtain ⟨v, hv, hd⟩ := bind_eq_ok hd
      injection hd with hd; rw [← hd]
  obtain ⟨c1, c2, c3, -⟩ := C149_construct _ _ _ _ hd
  have hsh : d.shape = List.replicate n m := c2
  have hyd : d.y = y := c3
  have hidx : IsIndex d.shape (List.replicate n 0) := by
    rw [hsh]
    unfold IsIndex
    rw [List.forall₂_iff_get]
    refine ⟨by simp, fun i h1 h2 => ?_⟩
    simp; omega
  have hdens : IsDensity d := by
    refine ⟨fun k hk => ?_, List.replicate n 0, hidx, ?_⟩
    · rw [hyd, hy k (hsh ▸ hk)]; exact (Real.exp_pos _).le
    · rw [hyd, hy _ (hsh ▸ hidx)]; exact Real.exp_pos _
  refine ⟨d, hd, hxi, hsh, hyd, ⟨by rw [hxi, gridOf_length hl hh], fun j hj => ?_⟩, c1, hdens, -Real.log (d.total * d.binVolume), fun k hk => ?_⟩
  · unfold lower upper
    rw [hxi, gridOf_getD (hl ▸ hj) (hh ▸ hj), linspace_head hm, linspace_last hm]
    exact ⟨by simp [linspace], linspace_even (hlt j hj) hm, rfl, rfl⟩
  · have hpos : 0 < d.y k := by rw [hyd, hy k (hsh ▸ hk)]; exact Real.exp_pos _
    rw [(C149_logpdf_grid d c1 hdens k hk).1 hpos, hyd, hy k (hsh ▸ hk),
      Real.log_div (Real.exp_pos _).ne' (mul_pos (total_pos hdens) (binVolume_pos c1)).ne', Real.log_exp, sub_eq_add_neg]

theorem foldAxes_spec (f : ℝ → ℝ → ℝ) (n : ℕ) (ss : List (List ℝ)) (hne : ss ≠ []) (hs : ∀ s ∈ ss, s.length = n) :
    (foldAxes f ss).length = n ∧ ∀ j < n, ∀ P : ℝ → Prop, (∀ s ∈ ss, P (s.getD j 0)) → (∀ u v, P u → P v → P (f u v)) → P ((foldAxes f ss).getD j 0) := by
  induction ss with
  | nil => exact absurd rfl hne
  | cons a r ih =>
    cases r with
    | nil => exact ⟨hs a (by simp), fun j hj P hP _ => hP a (by simp)⟩
    | cons b r =>
      obtain ⟨i1, i2⟩ := ih (by simp) (fun s hs' => hs s (List.mem_cons_of_mem _ hs'))
      have ha := hs a (by simp)
      have e : foldAxes f (a :: b :: r) = List.zipWith f a (foldAxes f (b :: r)) := rfl
      refine ⟨by rw [e]; simp [ha, i1], fun j hj P hP hf => ?_⟩
      have : (foldAxes f (a :: b :: r)).getD j 0 = f (a.getD j 0) ((foldAxes f (b :: r)).getD j 0) := by
        rw [e]
        simp [List.getD_eq_getElem?_getD, List.getElem?_zipWith, List.getElem?_eq_getElem (ha ▸ hj : j < a.length),
          List.getElem?_eq_getElem (i1 ▸ hj : j < (foldAxes f (b :: r)).length)]
      rw [this]
      exact hf _ _ (hP a (by simp)) (i2 j hj P (fun s hs' => hP s (List.mem_cons_of_mem _ hs')) hf)

theorem foldAxes_bound (f : ℝ → ℝ → ℝ) (R : ℝ → ℝ → Prop) (hR : ∀ u v, R u (f u v) ∧ R v (f u v)) (hrefl : ∀ u, R u u)
    (htr : ∀ u v w, R u v → R v w → R u w) (n : ℕ) (ss : List (List ℝ)) (hs : ∀ s ∈ ss, s.length = n) :
    ∀ s ∈ ss, ∀ j < n, R (s.getD j 0) ((foldAxes f ss).getD j 0) := by
  induction ss with
  | nil => simp
  | cons a r ih =>
    cases r with
    | nil => intro s hs' j hj; rw [List.mem_singleton] at hs'; subst hs'; exact hrefl _
    | cons b r =>
      intro s hs' j hj
      have ha := hs a (by simp)
      have i1 := (foldAxes_spec f n (b :: r) (by simp) (fun s hs' => hs s (List.mem_cons_of_mem _ hs'))).1
      have : (foldAxes f (a :: b :: r)).getD j 0 = f (a.getD j 0) ((foldAxes f (b :: r)).getD j 0) := by
        rw [show foldAxes f (a :: b :: r) = List.zipWith f a (foldAxes f (b :: r)) from rfl]
        simp [List.getD_eq_getElem?_getD, List.getElem?_zipWith, List.getElem?_eq_getElem (ha ▸ hj : j < a.length),
          List.getElem?_eq_getElem (i1 ▸ hj : j < (foldAxes f (b :: r)).length)]
      rw [this]
      rcases List.mem_cons.1 hs' with rfl | hs'
      · exact (hR _ _).1
      · exact htr _ _ _ (ih (fun s hs' => hs s (List.mem_cons_of_mem _ hs')) s hs' j hj) (hR _ _).2

theorem mapM_supp {n : ℕ} {ds : List MNum} (hs : ∀ d ∈ ds, Supported n d) :
    ds.mapM suppOf = .ok (ds.map fun d => (d.xi.map fun x => x.headD 0, d.xi.map fun x => x.getLastD 0)) := by
  rw [mapM_ok_iff, List.forall₂_map_right_iff]
  refine List.forall₂_same.2 fun d hd => ?_
  unfold suppOf
  rw [(hs d hd).supp]

theorem getD_map_axis (d : MNum) (f : List ℝ → ℝ) (h0 : f [] = 0) (j : ℕ) : (d.xi.map f).getD j 0 = f (d.xi.getD j []) := by
  rw [List.getD_eq_getElem?_getD, List.getD_eq_getElem?_getD, List.getElem?_map]
  cases d.xi[j]? with
  | none => simp [h0]
  | some x => rfl

theorem inside_iff {xi : List (List ℝ)} {x : List ℝ} : inside xi x ↔ x.length = xi.length ∧
    ∀ j < xi.length, (xi.getD j []).headD 0 ≤ x.getD j 0 ∧ x.getD j 0 ≤ (xi.getD j []).getLastD 0 := by
  unfold inside
  rw [List.forall₂_iff_get]
  constructor
  · rintro ⟨h1, h2⟩
    refine ⟨h1.symm, fun j hj => ?_⟩
    have := h2 j hj (h1 ▸ hj)
    rwa [List.getD_eq_getElem?_getD, List.getElem?_eq_getElem hj, List.getD_eq_getElem?_getD, List.getElem?_eq_getElem (h1 ▸ hj : j < x.length)]
  · rintro ⟨h1, h2⟩
    refine ⟨h1.symm, fun j hj hj' => ?_⟩
    have := h2 j hj
    rwa [List.getD_eq_getElem?_getD, List.getElem?_eq_getElem hj, List.getD_eq_getElem?_getD, List.getElem?_eq_getElem hj'] at this

/-! ## Theorems -/

/-- **C151 (conversion of a normal distribution)** A multivariate normal distribution is converted to a numerical one with the same
central value, on a grid of 100 equidistant points per dimension from six standard deviations below to six above the
central value; at every grid point the log-PDF is that of the normal distribution plus a constant. A numerical
distribution is not changed. -/
theorem C151_from_pd {n : ℕ} (hn : 0 < n) (p : MVN n) (hp : ∀ i, 0 < p.sd i) :
    (∃ d, fromPd (.normal p) = .ok d ∧ Supported n d ∧ d.central = toL p.central ∧
      Axes d n 100 (fun j => if h : j < n then p.central ⟨j, h⟩ - 6 * p.sd ⟨j, h⟩ else 0)
        (fun j => if h : j < n then p.central ⟨j, h⟩ + 6 * p.sd ⟨j, h⟩ else 0) ∧
      ∃ a : ℝ, ∀ k, IsIndex d.shape k → d.logpdf (gridPoint d.xi k) = .ok ((p.logpdf (fun i => (gridPoint d.xi k).getD i 0) + a : ℝ) : LogP)) ∧
    ∀ d : MNum, fromPd (n := n) (.num d) = .ok d := by
  refine ⟨?_, fun _ => rfl⟩
  have hget : ∀ (f : Fin n → ℝ) (j : ℕ), (toL f).getD j 0 = if h : j < n then f ⟨j, h⟩ else 0 := by
    intro f j
    unfold toL
    rw [List.getD_eq_getElem?_getD, List.getElem?_ofFn]
    split_ifs <;> rfl
  obtain ⟨d, h1, h2, h3, h4, h5, h6, h7, a, h8⟩ := exp_table hn (lo := toL p.support.1) (hi := toL p.support.2) (m := 100) (by simp [toL])
    (by simp [toL]) (by norm_num) (fun j hj => by
      rw [hget, hget, dif_pos hj, dif_pos hj]
      unfold MVN.support
      have := hp ⟨j, hj⟩
      dsimp only
      linarith) (fun k => p.logpdf (ofL n (gridPoint (gridOf (toL p.support.1) (toL p.support.2) 100) k))) _ (fun k _ => rfl) (some (toL p.central))
  obtain ⟨-, -, -, -, c5, -⟩ := C149_construct _ _ _ _ h1
  refine ⟨d, h1, ⟨h6, h7, h5.1, (c5 _ rfl).2⟩, (c5 _ rfl).1, ⟨h5.1, fun j hj => ?_⟩, a, fun k hk => ?_⟩
  · have := h5.2 j hj
    beta_reduce at this ⊢
    rw [hget, hget, dif_pos hj, dif_pos hj] at this
    rw [dif_pos hj, dif_pos hj]
    exact this
  · rw [h8 k hk, h2]
    rfl

/-- **C151 (combination)** The combination of numerical distributions with supports that overlap: a distribution on the intersection of
the supports, with 200 equidistant points per dimension, whose log-PDF at every grid point is the sum of the log-PDFs of
the distributions plus a constant; its central value is a grid point with the largest PDF. -/
theorem C151_combine (n : ℕ) (hn : 0 < n) (ds : List MNum) (hne : ds ≠ []) (hs : ∀ d ∈ ds, Supported n d) (lo hi : ℕ → ℝ)
    (hlo : ∀ j < n, IsGreatest {v | ∃ d ∈ ds, v = lower d j} (lo j)) (hhi : ∀ j < n, IsLeast {v | ∃ d ∈ ds, v = upper d j} (hi j)) :
    ((∀ j < n, lo j < hi j) → ∃ d, combineNums ds 200 = .ok d ∧ IsGrid d.xi ∧ IsDensity d ∧ d.support = none ∧ Axes d n 200 lo hi ∧
      (∃ k, IsIndex d.shape k ∧ d.central = gridPoint d.xi k ∧ ∀ k', IsIndex d.shape k' → d.y k' ≤ d.y k) ∧
      ∃ a : ℝ, ∀ k, IsIndex d.shape k → ∃ vs : List ℝ, List.Forall₂ (fun (e : MNum) (v : ℝ) => e.logpdf (gridPoint d.xi k) = .ok (v : LogP)) ds vs ∧
        d.logpdf (gridPoint d.xi k) = .ok ((vs.sum + a : ℝ) : LogP)) ∧
    ((∃ j < n, hi j ≤ lo j) → combineNums ds 200 = .error .assertionError) := by
  set ss : List (List ℝ × List ℝ) := ds.map fun d => (d.xi.map fun x => x.headD 0, d.xi.map fun x => x.getLastD 0) with hss
  set lo' := foldAxes max (ss.map Prod.fst) with hlo'
  set hi' := foldAxes min (ss.map Prod.snd) with hhi'
  have hf : ss.map Prod.fst = ds.map fun d => d.xi.map fun x => x.headD 0 := by rw [hss, List.map_map]; rfl
  have hg : ss.map Prod.snd = ds.map fun d => d.xi.map fun x => x.getLastD 0 := by rw [hss, List.map_map]; rfl
  have hsf : ∀ s ∈ ss.map Prod.fst, s.length = n := by
    rw [hf]; intro s hs'; obtain ⟨d, hd, rfl⟩ := List.mem_map.1 hs'; rw [List.length_map, (hs d hd).dim]
  have hsg : ∀ s ∈ ss.map Prod.snd, s.length = n := by
    rw [hg]; intro s hs'; obtain ⟨d, hd, rfl⟩ := List.mem_map.1 hs'; rw [List.length_map, (hs d hd).dim]
  have hnf : ss.map Prod.fst ≠ [] := by rw [hf]; simpa using hne
  have hng : ss.map Prod.snd ≠ [] := by rw [hg]; simpa using hne
  obtain ⟨l1, l2⟩ := foldAxes_spec max n _ hnf hsf
  obtain ⟨u1, u2⟩ := foldAxes_spec min n _ hng hsg
  have l3 := foldAxes_bound max (· ≤ ·) (fun u v => ⟨le_max_left _ _, le_max_right _ _⟩) le_refl (fun _ _ _ => le_trans) n _ hsf
  have u3 := foldAxes_bound min (· ≥ ·) (fun u v => ⟨min_le_left _ _, min_le_right _ _⟩) le_refl (fun _ _ _ h1 h2 => le_trans h2 h1) n _ hsg
  have elo : ∀ j < n, lo'.getD j 0 = lo j := by
    intro j hj
    refine (IsGreatest.unique ⟨?_, ?_⟩ (hlo j hj))
    · refine l2 j hj (fun v => v ∈ {v | ∃ d ∈ ds, v = lower d j}) ?_ ?_
      · rw [hf]; intro s hs'; obtain ⟨d, hd, rfl⟩ := List.mem_map.1 hs'
        exact ⟨d, hd, getD_map_axis d _ rfl j⟩
      · intro u v hu hv; rcases max_choice u v with h | h <;> rw [h] <;> assumption
    · rintro v ⟨d, hd, rfl⟩
      have := l3 (d.xi.map fun x => x.headD 0) (by rw [hf]; exact List.mem_map.2 ⟨d, hd, rfl⟩) j hj
      rwa [getD_map_axis d _ rfl j] at this
  have ehi : ∀ j < n, hi'.getD j 0 = hi j := by
    intro j hj
    refine (IsLeast.unique ⟨?_, ?_⟩ (hhi j hj))
    · refine u2 j hj (fun v => v ∈ {v | ∃ d ∈ ds, v = upper d j}) ?_ ?_
      · rw [hg]; intro s hs'; obtain ⟨d, hd, rfl⟩ := List.mem_map.1 hs'
        exact ⟨d, hd, getD_map_axis d _ rfl j⟩
      · intro u v hu hv; rcases min_choice u v with h | h <;> rw [h] <;> assumption
    · rintro v ⟨d, hd, rfl⟩
      have := u3 (d.xi.map fun x => x.getLastD 0) (by rw [hg]; exact List.mem_map.2 ⟨d, hd, rfl⟩) j hj
      rwa [getD_map_axis d _ rfl j] at this
  have hdec : List.Forall₂ (· < ·) lo' hi' ↔ ∀ j < n, lo j < hi j := by
    rw [List.forall₂_iff_get]
    constructor
    · rintro ⟨_, h⟩ j hj
      have := h j (l1.symm ▸ hj) (u1.symm ▸ hj)
      rw [← elo j hj, ← ehi j hj, List.getD_eq_getElem?_getD, List.getElem?_eq_getElem (l1.symm ▸ hj), List.getD_eq_getElem?_getD,
        List.getElem?_eq_getElem (u1.symm ▸ hj)]
      exact this
    · intro h
      refine ⟨by rw [l1, u1], fun j h1 h2 => ?_⟩
      have hj : j < n := l1 ▸ h1
      have := h j hj
      rw [← elo j hj, ← ehi j hj, List.getD_eq_getElem?_getD, List.getElem?_eq_getElem h1, List.getD_eq_getElem?_getD,
        List.getElem?_eq_getElem h2] at this
      exact this
  have hunf : combineNums ds 200 = if ¬ List.Forall₂ (· < ·) lo' hi' then .error .assertionError
      else mkMNum (gridOf lo' hi' 200)
        ⟨List.replicate lo'.length 200, fun k => (ds.map fun d => density d (gridPoint (gridOf lo' hi' 200) k)).prod⟩ none := by
    unfold combineNums
    rw [mapM_supp hs, ok_bind_eq]
  refine ⟨fun hlt => ?_, fun ⟨j, hj, hle⟩ => ?_⟩
  · rw [hunf, if_neg (not_not.2 (hdec.2 hlt)), l1]
    have hpt : ∀ k, IsIndex (List.replicate n 200) k → ∀ e ∈ ds, e.logpdf (gridPoint (gridOf lo' hi' 200) k) =
        .ok ((interp e.xi e.logTab (gridPoint (gridOf lo' hi' 200) k) : ℝ) : LogP) := by
      intro k hk e he
      have hgr : ∀ x ∈ gridOf lo' hi' 200, 2 ≤ x.length ∧ x.Pairwise (· < ·) := fun x hx => by
        have := (gridOf_even l1 u1 (m := 200) (by norm_num) (fun j hj => by rw [elo j hj, ehi j hj]; exact hlt j hj) x hx).spec
        exact ⟨this.1, this.2.1⟩
      rw [← gridOf_shape (m := 200) l1 u1] at hk
      obtain ⟨i1, i2⟩ := inside_grid hgr hk
      rw [gridOf_length l1 u1] at i2
      rw [inside_iff] at i1
      have hin : inside e.xi (gridPoint (gridOf lo' hi' 200) k) := by
        rw [inside_iff, (hs e he).dim]
        refine ⟨i2, fun j hj => ?_⟩
        have := i1.2 j (by rw [gridOf_length l1 u1]; exact hj)
        rw [gridOf_getD (l1.symm ▸ hj) (u1.symm ▸ hj), linspace_head (by norm_num), linspace_last (by norm_num), elo j hj, ehi j hj] at this
        have h1 := (hlo j hj).2 ⟨e, he, rfl⟩
        have h2 := (hhi j hj).2 ⟨e, he, rfl⟩
        unfold lower at h1; unfold upper at h2
        exact ⟨h1.trans this.1, this.2.trans h2⟩
      unfold MNum.logpdf
      rw [if_neg (by rw [i2, (hs e he).dim]; simp), if_pos hin]
    obtain ⟨d, h1, h2, h3, h4, h5, h6, h7, a, h8⟩ := exp_table hn l1 u1 (m := 200) (by norm_num)
      (fun j hj => by rw [elo j hj, ehi j hj]; exact hlt j hj)
      (fun k => (ds.map fun e => interp e.xi e.logTab (gridPoint (gridOf lo' hi' 200) k)).sum)
      (fun k => (ds.map fun d => density d (gridPoint (gridOf lo' hi' 200) k)).prod) (fun k hk => by
        rw [Real.exp_list_sum, List.map_map]
        refine congrArg List.prod (List.map_congr_left fun e he => ?_)
        unfold density
        rw [hpt k hk e he]
        rfl) none
    obtain ⟨-, -, -, -, -, c6⟩ := C149_construct _ _ _ _ h1
    obtain ⟨c7, k0, c8, c9, c10⟩ := c6 rfl
    refine ⟨d, h1, h6, h7, c7, ⟨h5.1, fun j hj => ?_⟩, ⟨k0, c8, c9, fun k' hk' => (c10 k' hk').1⟩, a, fun k hk => ?_⟩
    · have := h5.2 j hj
      beta_reduce at this
      rw [← hlo', ← hhi', elo j hj, ehi j hj] at this
      exact this
    · refine ⟨_, ?_, h8 k hk⟩
      rw [List.forall₂_map_right_iff]
      refine List.forall₂_same.2 fun e he => ?_
      rw [h2]
      exact hpt k (h3 ▸ hk) e he
  · rw [hunf, if_pos]
    intro h
    have := hdec.1 h j hj
    linarith

/-- **C151 (no support)** A numerical distribution without support (no central value was given to the constructor) cannot be combined
with anything. -/
theorem C151_no_support (ds : List MNum) (d : MNum) (hd : d ∈ ds) (h : d.support = none) (m : ℕ) : combineNums ds m = .error .indexError := by
  have key : ∀ l : List MNum, d ∈ l → l.mapM suppOf = .error .indexError := by
    intro l
    induction l with
    | nil => simp
    | cons a l ih =>
      intro hm
      rw [List.mapM_cons]
      cases ha : a.support with
      | none => simp only [suppOf, ha]; rfl
      | some s =>
        have : d ∈ l := by
          rcases List.mem_cons.1 hm with rfl | hm
          · rw [h] at ha; cases ha
          · exact hm
        simp only [suppOf, ha]
        rw [ih this]; rfl
  unfold combineNums
  rw [key ds hd]; rfl

/-- **C151 (dispatch)** A single distribution is returned unchanged; normal distributions only give the combined normal distribution;
otherwise the (combined) normal distribution is converted and combined with the numerical ones. -/
theorem C151_dispatch {n : ℕ} (ns : List (MVN n)) (os : List MNum) (ds : List (MDist n))
    (ho : ds.filterMap (fun | .num d => some d | _ => none) = os)
    (hn : ds.filterMap (fun | .normal d => some d | _ => none) = ns) :
    (∀ d, ds = [d] → combineM ds = .ok d) ∧
    (2 ≤ ds.length → os = [] → combineM ds = combineMvGaussians ns >>= fun d => .ok (.normal d)) ∧
    (2 ≤ ds.length → ns = [] → combineM ds = combineNums os 200 >>= fun d => .ok (.num d)) ∧
    (os ≠ [] → ns ≠ [] → combineM ds = combineMvGaussians ns >>= fun g => fromNormal g 100 >>= fun c =>
      combineNums (os ++ [c]) 200 >>= fun d => .ok (.num d)) := by
  have hlen : ds.length = os.length + ns.length := by
    rw [← ho, ← hn]
    clear ho hn
    induction ds with
    | nil => rfl
    | cons a r ih => cases a <;> simp [ih] <;> omega
  have hid : ∀ l : List MNum, (l.mapM fun d => fromPd (n := n) (.num d)) = .ok l := fun l => by
    rw [mapM_ok_iff]; exact List.forall₂_same.2 fun _ _ => rfl
  have hnn : normalsOf ds = ns := by rw [← hn]; unfold normalsOf; congr 1
  have hoo : numsOf ds = os := by rw [← ho]; unfold numsOf; congr 1
  have hun : 2 ≤ ds.length → combineM ds = match normalsOf ds, numsOf ds with
    | [], o => o.mapM (fun d => fromPd (n := n) (.num d)) >>= fun l => combineNums l 200 >>= fun m => .ok (.num m)
    | g :: gs, [] => combineMvGaussians (g :: gs) >>= fun d => .ok (.normal d)
    | g :: gs, o => combineMvGaussians (g :: gs) >>= fun d =>
        (o.map MDist.num ++ [MDist.normal d]).mapM fromPd >>= fun l => combineNums l 200 >>= fun m => .ok (.num m) := by
    intro h
    match ds, h with
    | a :: b :: r, _ => rfl
  refine ⟨fun d hd => by rw [hd]; rfl, fun h2 h0 => ?_, fun h2 h0 => ?_, fun ho1 hn1 => ?_⟩
  · rw [hun h2, hnn, hoo, h0]
    cases ns with
    | nil => rw [h0] at hlen; simp at hlen; rw [hlen] at h2; simp at h2
    | cons g gs => rfl
  · rw [hun h2, hnn, hoo, h0]
    simp only [hid]
    rfl
  · have h2 : 2 ≤ ds.length := by
      have := List.length_pos_of_ne_nil ho1; have := List.length_pos_of_ne_nil hn1; omega
    rw [hun h2, hnn, hoo]
    cases ns with
    | nil => exact absurd rfl hn1
    | cons g gs =>
      cases os with
      | nil => exact absurd rfl ho1
      | cons o os =>
        simp only
        congr 1
        funext d
        have : ((o :: os).map MDist.num ++ [MDist.normal d]).mapM (fromPd (n := n)) = fromNormal d 100 >>= fun c => .ok (o :: os ++ [c]) := by
          rw [List.mapM_append, List.mapM_map]
          rw [show ((o :: os).mapM (fromPd ∘ MDist.num (n := n))) = .ok (o :: os) from hid _, ok_bind_eq, List.mapM_cons, List.mapM_nil]
          cases h : fromNormal d 100 with
          | error e => simp [fromPd, h, bind, Except.bind]
          | ok c => simp [fromPd, h, bind, Except.bind, pure, Except.pure]
        rw [this]
        cases h : fromNormal d 100 with
        | error e => rfl
        | ok c => rfl

/-- **C151 (combining again)** The result of a combination has no support: combining it with further distributions raises an
exception, although combining all of them at once works. -/
theorem C151_recombine (ds : List MNum) (m : MNum) (h : combineNums ds 200 = .ok m) (l : List MNum) (hm : m ∈ l) :
    combineNums l 200 = .error .indexError := by
  apply C151_no_support l m hm
  unfold combineNums at h
  obtain ⟨ss, -, h⟩ := bind_eq_ok h
  simp only at h
  split_ifs at h with h1
  · exact ((C149_construct _ _ _ _ h).2.2.2.2.2 rfl).1

/-! ## A concrete case -/

/-- A distribution that is flat on the square from 0 to `b`. (Specification.) -/
noncomputable def flatSquare (b : ℝ) : MNum := ⟨[[0, b], [0, b]], fun _ => 1, [0, 0], some ([0, 0], [b, b])⟩

theorem flatSquare_supported {b : ℝ} (hb : 0 < b) : Supported 2 (flatSquare b) :=
  ⟨⟨by simp [flatSquare], by simp [flatSquare, hb]⟩, ⟨fun _ _ => zero_le_one, [0, 0], .cons (by simp [flatSquare]) (.cons (by simp [flatSquare]) .nil), one_pos⟩,
    rfl, rfl⟩

/-- Two such distributions can be combined; the result is flat on the smaller square, and cannot be combined with one of them again,
although the combination of all three works. -/
theorem C151_witness : ∃ m t, combineNums [flatSquare 2, flatSquare 1] 200 = .ok m ∧ Axes m 2 200 (fun _ => 0) (fun _ => 1) ∧
    combineNums [m, flatSquare 1] 200 = .error .indexError ∧ combineNums [flatSquare 2, flatSquare 1, flatSquare 1] 200 = .ok t := by
  have hs2 := flatSquare_supported (b := 2) (by norm_num)
  have hs1 := flatSquare_supported (b := 1) (by norm_num)
  have hl : ∀ b, ∀ j < 2, lower (flatSquare b) j = 0 := by
    intro b j hj; interval_cases j <;> rfl
  have hu : ∀ b, ∀ j < 2, upper (flatSquare b) j = b := by
    intro b j hj; interval_cases j <;> rfl
  obtain ⟨m, h1, -, -, -, h2, -⟩ := (C151_combine 2 (by norm_num) [flatSquare 2, flatSquare 1] (by simp) (by simp [hs1, hs2]) (fun _ => 0) (fun _ => 1)
    (fun j hj => ⟨⟨_, List.mem_cons_self, (hl 2 j hj).symm⟩, by rintro v ⟨d, hd, rfl⟩; simp at hd; rcases hd with rfl | rfl <;> rw [hl _ j hj]⟩)
    (fun j hj => ⟨⟨flatSquare 1, by simp, (hu 1 j hj).symm⟩, by rintro v ⟨d, hd, rfl⟩; simp at hd; rcases hd with rfl | rfl <;> rw [hu _ j hj]; norm_num⟩)).1
    (fun _ _ => by norm_num)
  obtain ⟨t, h3, -⟩ := (C151_combine 2 (by norm_num) [flatSquare 2, flatSquare 1, flatSquare 1] (by simp) (by simp [hs1, hs2]) (fun _ => 0) (fun _ => 1)
    (fun j hj => ⟨⟨_, List.mem_cons_self, (hl 2 j hj).symm⟩, by rintro v ⟨d, hd, rfl⟩; simp at hd; rcases hd with rfl | rfl <;> rw [hl _ j hj]⟩)
    (fun j hj => ⟨⟨flatSquare 1, by simp, (hu 1 j hj).symm⟩, by rintro v ⟨d, hd, rfl⟩; simp at hd; rcases hd with rfl | rfl <;> rw [hu _ j hj]; norm_num⟩)).1
    (fun _ _ => by norm_num)
  exact ⟨m, t, h1, h2, C151_recombine _ _ h1 _ (by simp), h3⟩

end Verif.Grid
