import Verif.Dict.Theorems3
/-!
# C38 for `MultivariateNumericalDistribution`; C40; summary
-/
set_option linter.unusedSectionVars false
set_option linter.unusedSimpArgs false
set_option linter.unusedVariables false
namespace Verif.DistDict
open Verif.Py Verif.Probability

mutual
theorem norm_norm : ∀ v : PVal, norm (norm v) = norm v
  | .seq b l => by simp only [norm, norm_normL l]
  | .dict d => by simp only [norm, norm_normD d]
  | .dist c a => by simp only [norm, norm_normD a]
  | .none => rfl
  | .int _ => rfl
  | .float _ => rfl
  | .str _ => rfl
theorem norm_normL : ∀ l : List PVal, normL (normL l) = normL l
  | [] => rfl
  | v :: r => by simp only [normL, norm_norm v, norm_normL r]
theorem norm_normD : ∀ l : List (String × PVal), normD (normD l) = normD l
  | [] => rfl
  | e :: r => by simp only [normD, norm_norm e.2, norm_normD r]
end

theorem shapeAt_norm : ∀ (i : ℕ) (v : PVal), shapeAt i (norm v) = shapeAt i v := by
  intro i
  induction i with
  | zero =>
    intro v
    cases v with
    | seq b l => simp only [norm, shapeAt, normL_eq, List.length_map]
    | _ => rfl
  | succ i ih =>
    intro v
    cases v with
    | seq b l =>
      cases l with
      | nil => rfl
      | cons x r => simp only [norm, normL, shapeAt, ih]
    | _ => rfl

theorem shapeAt_thru (i : ℕ) (v : PVal) : shapeAt i (thru v) = shapeAt i v := by
  rw [← shapeAt_norm i (thru v), norm_thru, shapeAt_norm]

theorem expandAxis_congr {y y' : PVal} {i : ℕ} (h : shapeAt i y = shapeAt i y') (x : List ℝ) :
    expandAxis y i x = expandAxis y' i x := by
  unfold expandAxis
  split
  · rw [h]
  · rfl

theorem linspace_length (a b : ℝ) (m : ℕ) : (linspace a b m).length = m := by simp [linspace]

theorem linspace_two (a b : ℝ) : linspace a b 2 = [a, b] := by
  simp [linspace, List.range_succ]; norm_num

/-- An axis that has been expanded is left alone. -/
theorem expandAxis_again {y : PVal} {i : ℕ} {x x' : List ℝ} (h : expandAxis y i x = .ok x') :
    expandAxis y i x' = .ok x' := by
  have key : ∀ z : List ℝ, z.length ≠ 2 → expandAxis y i z = .ok z := by
    intro z hz
    match z, hz with
    | [], _ => rfl
    | [_], _ => rfl
    | [_, _], hz => simp at hz
    | _ :: _ :: _ :: _, _ => rfl
  by_cases hl : x.length = 2
  · obtain ⟨a, b, rfl⟩ : ∃ a b, x = [a, b] := by
      match x, hl with
      | [a, b], _ => exact ⟨a, b, rfl⟩
    simp only [expandAxis] at h
    cases hs : shapeAt i y with
    | none => rw [hs] at h; cases h
    | some m =>
      rw [hs] at h
      injection h with h
      by_cases hm : m = 2
      · subst hm
        rw [linspace_two] at h
        rw [← h]
        simp only [expandAxis, hs, linspace_two]
      · exact key x' (by rw [← h, linspace_length]; exact hm)
  · have := key x hl
    rw [this] at h; cases h
    exact this

theorem diff_map_range' (f : ℕ → ℝ) (m : ℕ) : ∀ s, ∀ d ∈ diff ((List.range' s m).map f), ∃ i, d = f (i + 1) - f i := by
  induction m with
  | zero => intro s d hd; simp [diff] at hd
  | succ m ih =>
    intro s d hd
    cases m with
    | zero => simp [diff] at hd
    | succ m =>
      simp only [List.range'_succ, List.map_cons, diff, List.mem_cons] at hd
      rcases hd with rfl | hd
      · exact ⟨s, rfl⟩
      · have := ih (s + 1) d
        simp only [List.range'_succ, List.map_cons] at this
        exact this hd

theorem diff_length : ∀ l : List ℝ, (diff l).length = l.length - 1
  | [] => rfl
  | [_] => rfl
  | _ :: b :: r => by simp [diff, diff_length (b :: r)]

theorem foldl_const (f : ℝ → ℝ → ℝ) (e : ℝ) (hf : f e e = e) (r : List ℝ) (h : ∀ d ∈ r, d = e) : r.foldl f e = e := by
  induction r with
  | nil => rfl
  | cons a r ih =>
    rw [List.foldl_cons, h a (by simp), hf]
    exact ih fun d hd => h d (by simp [hd])

/-- A linear range is evenly spaced. -/
theorem evenCheck_linspace (a b : ℝ) (m : ℕ) (hm : 2 ≤ m) : evenCheck (linspace a b m) = .ok () := by
  have hd : ∀ d ∈ diff (linspace a b m), d = (b - a) / ((m : ℝ) - 1) := by
    intro d hd
    unfold linspace at hd
    rw [List.range_eq_range'] at hd
    obtain ⟨i, hi⟩ := diff_map_range' _ m 0 d hd
    rw [hi]; push_cast; ring
  have hl := diff_length (linspace a b m)
  rw [linspace_length] at hl
  unfold evenCheck
  match hdl : diff (linspace a b m) with
  | [] => rw [hdl] at hl; simp at hl; omega
  | d :: r =>
    rw [hdl] at hd
    have e := hd d (by simp)
    have h1 : r.foldl max d = d := foldl_const _ _ (max_self _) _ fun x hx => by rw [hd x (by simp [hx]), e]
    have h2 : r.foldl min d = d := foldl_const _ _ (min_self _) _ fun x hx => by rw [hd x (by simp [hx]), e]
    simp only [h1, h2]
    rw [if_neg]
    rintro (⟨h3, h4⟩ | ⟨h3, h4⟩)
    · exact h4 h3
    · rw [div_self h3, sub_self, abs_zero] at h4; norm_num at h4

theorem evenCheck_expand {y : PVal} {i : ℕ} {x x' : List ℝ} (hx : evenCheck x = .ok ()) (h : expandAxis y i x = .ok x')
    (hl : 2 ≤ x'.length) : evenCheck x' = .ok () := by
  unfold expandAxis at h
  split at h
  · split at h
    · injection h with h
      rw [← h]
      apply evenCheck_linspace
      rw [← h, linspace_length] at hl; exact hl
    · cases h
  · injection h with h; rw [← h]; exact hx

theorem mvnum_decomp {E : Env} {xi y c : PVal} {a : Dict String PVal} (h : bMVNumerical E xi y c = .ok a) :
    ∃ (xs xs' : List (List ℝ)) (c' : Option (List ℝ)) (r : PVal), mat xi = .ok xs ∧ (∀ x ∈ xs, evenCheck x = .ok ()) ∧
      xs.zipIdx.mapM (fun e => expandAxis y e.2 e.1) = .ok xs' ∧ optVec c = .ok c' ∧ (∀ x ∈ xs', 2 ≤ x.length) ∧
      E.rest xs' (norm y) = .ok r ∧
      a = [("xi", .seq false (xs'.map ofVec)), ("y", norm y), ("rest", r)] ++
        (if c' = none then [("central_value", ofVec (E.mode xs' (norm y))), ("support", .none)]
        else [("central_value", c),
            ("support", ofMat [xs'.map fun x => x.headD 0, xs'.map fun x => x.getLastD 0])]) := by
  unfold bMVNumerical at h
  obtain ⟨xs, h1, h⟩ := bind_eq_ok h
  obtain ⟨us, h2, h⟩ := bind_eq_ok h
  obtain ⟨xs', h3, h⟩ := bind_eq_ok h
  obtain ⟨c', h4, h⟩ := bind_eq_ok h
  split at h
  · cases h
  rename_i h5
  obtain ⟨r, h6, h⟩ := bind_eq_ok h
  refine ⟨xs, xs', c', r, h1, ?_, h3, h4, ?_, h6, ?_⟩
  · intro x hx
    rw [mapM_ok_iff] at h2
    obtain ⟨u, _, hu⟩ := forall₂_mem_left h2 hx
    exact hu
  · intro x hx
    simp only [List.any_eq_true, decide_eq_true_eq, not_exists, not_and, not_lt] at h5
    exact h5 x hx
  · cases c' with
    | none => simp only [if_true]; injection h with h; exact h.symm
    | some l => simp only [reduceCtorEq, if_false]; injection h with h; exact h.symm

/-- Expanding the expanded grid changes nothing. -/
theorem expand_all_again {y y' : PVal} (hy : ∀ i, shapeAt i y' = shapeAt i y) (xs xs' : List (List ℝ)) (k : ℕ)
    (h : (xs.zipIdx k).mapM (fun e => expandAxis y e.2 e.1) = .ok xs') :
    (xs'.zipIdx k).mapM (fun e => expandAxis y' e.2 e.1) = .ok xs' := by
  rw [mapM_ok_iff] at h ⊢
  induction xs generalizing xs' k with
  | nil => cases h; exact .nil
  | cons x xs ih =>
    rw [List.zipIdx_cons] at h
    cases h with
    | cons h1 h2 =>
      rw [List.zipIdx_cons]
      refine .cons ?_ (ih _ _ h2)
      simp only at h1 ⊢
      rw [expandAxis_congr (hy k)]
      exact expandAxis_again h1

theorem even_all_again {y : PVal} (xs xs' : List (List ℝ)) (k : ℕ)
    (h : (xs.zipIdx k).mapM (fun e => expandAxis y e.2 e.1) = .ok xs') (he : ∀ x ∈ xs, evenCheck x = .ok ())
    (hl : ∀ x ∈ xs', 2 ≤ x.length) : ∃ us, xs'.mapM evenCheck = .ok us := by
  apply mapM_ok_of_forall
  rw [mapM_ok_iff] at h
  induction xs generalizing xs' k with
  | nil => cases h; simp
  | cons x xs ih =>
    rw [List.zipIdx_cons] at h
    cases h with
    | cons h1 h2 =>
      intro z hz
      rcases List.mem_cons.1 hz with rfl | hz
      · exact ⟨(), evenCheck_expand (he x (by simp)) h1 (hl _ (by simp))⟩
      · exact ih _ _ h2 (fun x hx => he x (List.mem_cons_of_mem _ hx)) (fun x hx => hl x (List.mem_cons_of_mem _ hx)) z hz

/-- The constructor applied to the stored grid, values and a central value. -/
theorem mvnum_again {E : Env} {xi y c : PVal} {a : Dict String PVal} (h : bMVNumerical E xi y c = .ok a)
    (cv : PVal) (l : List ℝ) (hcv : vec cv = .ok l) :
    ∃ (xs' : List (List ℝ)) (r : PVal),
      a.take 3 = [("xi", .seq false (xs'.map ofVec)), ("y", norm y), ("rest", r)] ∧
      bMVNumerical E (thru (.seq false (xs'.map ofVec))) (thru (norm y)) cv =
        .ok [("xi", .seq false (xs'.map ofVec)), ("y", norm y), ("rest", r), ("central_value", cv),
            ("support", ofMat [xs'.map fun x => x.headD 0, xs'.map fun x => x.getLastD 0])] := by
  obtain ⟨xs, xs', c', r, h1, h2, h3, h4, h5, h6, h7⟩ := mvnum_decomp h
  refine ⟨xs', r, by rw [h7]; rfl, ?_⟩
  have hm : mat (thru (.seq false (xs'.map ofVec))) = .ok xs' := by
    rw [mat_thru]; exact mat_ofMat xs'
  obtain ⟨us, hus⟩ := even_all_again xs xs' 0 h3 h2 h5
  have hex := expand_all_again (y' := thru (norm y)) (fun i => by rw [shapeAt_thru, shapeAt_norm]) xs xs' 0 h3
  have hoc : optVec cv = .ok (some l) := by
    cases cv with
    | seq b l' => simp only [optVec, hcv, ok_bind_eq]
    | _ => cases hcv
  unfold bMVNumerical
  simp only [hm, hus, hex, hoc, ok_bind_eq, norm_thru, norm_norm, h6]
  rw [if_neg]
  simp only [List.any_eq_true, decide_eq_true_eq, not_exists, not_and, not_lt]
  exact h5

theorem seqVec_of_optVec {c : PVal} {l : List ℝ} (h : optVec c = .ok (some l)) : vec c = .ok l := by
  cases c with
  | seq b l' =>
    simp only [optVec] at h
    obtain ⟨x, hx, h⟩ := bind_eq_ok h
    cases h; exact hx
  | _ => cases h

theorem norm_eq_of_not {v : PVal} : NotDist (norm v) ∨ ∃ c a, v = .dist c a := by
  cases v with
  | dist c a => exact .inr ⟨c, a, rfl⟩
  | _ => left; rintro c a h; cases h

/-- `MultivariateNumericalDistribution` with a given central value. -/
theorem build_multivariateNumerical (E : Env) {xi y c : PVal} {a : Dict String PVal}
    (h : build E .multivariateNumerical [xi, y, c] = .ok a) (hy : NotDist y) (hc : c ≠ .none) :
    Reloads E ⟨.multivariateNumerical, a⟩ := by
  replace h : bMVNumerical E xi y c = .ok a := h
  obtain ⟨xs, xs', c', r, h1, h2, h3, h4, h5, h6, h7⟩ := mvnum_decomp h
  have hc' : ∃ l, c' = some l ∧ vec c = .ok l := by
    cases c' with
    | none =>
      cases c with
      | none => exact absurd rfl hc
      | _ => exfalso; simp only [optVec] at h4; obtain ⟨x, _, h4⟩ := bind_eq_ok h4; cases h4
    | some l => exact ⟨l, rfl, seqVec_of_optVec h4⟩
  obtain ⟨l, rfl, hl⟩ := hc'
  obtain ⟨xs2, r2, ht, hb⟩ := mvnum_again h (thru c) l (by rw [vec_thru]; exact hl)
  rw [if_neg (by simp)] at h7
  rw [h7] at ht
  simp only [List.cons_append, List.nil_append, List.take_succ_cons, List.take_zero, List.cons.injEq, Prod.mk.injEq,
    true_and, and_true, PVal.seq.injEq] at ht
  obtain ⟨e1, e2⟩ := ht
  have e1' : xs' = xs2 := by
    have q1 := mat_ofMat xs'
    have q2 := mat_ofMat xs2
    unfold ofMat at q1 q2
    rw [e1, q2] at q1
    injection q1 with q1; exact q1.symm
  subst e1'; subst e2
  rw [h7]
  refine reloads_of_build E _ _ _ [.seq false (xs'.map ofVec), norm y, c] rfl ?_ hb ?_
  · simp only [List.mem_cons, List.not_mem_nil, or_false]
    rintro v (rfl | rfl | rfl)
    · exact seq_notDist _ _
    · rcases norm_eq_of_not (v := y) with h | ⟨c, a, h⟩
      · exact h
      · exact absurd h (hy c a)
    · exact vec_notDist hl
  · simp only [List.cons_append, List.nil_append, normD, norm_thru]

/-- Without a given central value, the reloaded object differs in its support only: `None` before, the range of the
grid after. -/
theorem mvnum_default_central (E : Env) {xi y : PVal} {a : Dict String PVal}
    (h : build E .multivariateNumerical [xi, y, .none] = .ok a) (hy : NotDist y) :
    Dict.get? a "support" = some .none ∧ ∃ o', roundTrip E ⟨.multivariateNumerical, a⟩ = .ok [o'] ∧
      (∀ k, k ≠ "support" → (Dict.get? o'.attrs k).map norm = (Dict.get? a k).map norm) ∧
      ∃ s, Dict.get? o'.attrs "support" = some s ∧ s ≠ .none := by
  replace h : bMVNumerical E xi y .none = .ok a := h
  obtain ⟨xs, xs', c', r, h1, h2, h3, h4, h5, h6, h7⟩ := mvnum_decomp h
  have hc' : c' = none := by cases h4; rfl
  subst hc'
  rw [if_pos rfl] at h7
  generalize hcv : ofVec (E.mode xs' (norm y)) = cv at h7
  have hvcv : vec cv = .ok (E.mode xs' (norm y)) := by rw [← hcv, vec_ofVec]
  obtain ⟨xs2, r2, ht, hb⟩ := mvnum_again h (thru cv) _ (by rw [vec_thru]; exact hvcv)
  rw [h7] at ht
  simp only [List.cons_append, List.nil_append, List.take_succ_cons, List.take_zero, List.cons.injEq, Prod.mk.injEq,
    true_and, and_true, PVal.seq.injEq] at ht
  obtain ⟨e1, e2⟩ := ht
  have e1' : xs' = xs2 := by
    have q1 := mat_ofMat xs'
    have q2 := mat_ofMat xs2
    unfold ofMat at q1 q2
    rw [e1, q2] at q1
    injection q1 with q1; exact q1.symm
  subst e1'; subst e2
  rw [h7]
  refine ⟨rfl, ⟨.multivariateNumerical, [("xi", .seq false (xs'.map ofVec)), ("y", norm y), ("rest", r),
    ("central_value", thru cv),
    ("support", ofMat [xs'.map fun x => x.headD 0, xs'.map fun x => x.getLastD 0])]⟩, ?_, ?_, ?_⟩
  · rw [roundTrip_eq E _ [.seq false (xs'.map ofVec), norm y, cv] rfl]
    · show bMVNumerical E (thru _) (thru _) (thru _) >>= _ = _
      rw [hb]; rfl
    · simp only [List.mem_cons, List.not_mem_nil, or_false]
      rintro v (rfl | rfl | rfl)
      · exact seq_notDist _ _
      · rcases norm_eq_of_not (v := y) with h | ⟨c, a, h⟩
        · exact h
        · exact absurd h (hy c a)
      · exact vec_notDist hvcv
  · intro k hk
    simp only [List.cons_append, List.nil_append, Dict.get?]
    split_ifs <;> simp_all [norm_thru]
  · exact ⟨_, rfl, by intro h; cases h⟩

end Verif.DistDict
