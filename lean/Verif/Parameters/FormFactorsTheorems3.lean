import Verif.Parameters.FormFactorsTheorems
/-!
# C148: lattice results and files in other formats
-/
set_option linter.unusedSectionVars false
set_option linter.unusedSimpArgs false
set_option linter.unusedVariables false
namespace Verif.Parameters
open Verif.Py Verif.Constraints Verif.Probability

/-! ## Specification -/

/-- The character after the first underscore is neither `c` nor an underscore (`v_a0`, but not `v_c01`). (Specification.) -/
def Coefficient (k : String) : Prop :=
  ∃ a c r, k.toList = a ++ '_' :: c :: r ∧ '_' ∉ a ∧ c ≠ 'c' ∧ c ≠ '_'

/-- Name of the parameter. (Specification.) -/
def sseName (process k : String) : String := process ++ (" SSE " ++ k)

/-! ## Lemmas -/

theorem dropWhile_first {a r : List Char} {x : Char} (h : x ∉ a) : (a ++ x :: r).dropWhile (fun y => y != x) = x :: r := by
  induction a with
  | nil => simp
  | cons b a ih =>
    rw [List.mem_cons, not_or] at h
    rw [List.cons_append, List.dropWhile_cons_of_pos (by simpa using fun e => h.1 e.symm)]
    exact ih h.2

theorem dropWhile_eq_first {l r : List Char} {x y : Char} (h : l.dropWhile (fun y => y != x) = y :: r) : y = x ∧ ∃ a, l = a ++ x :: r ∧ x ∉ a := by
  induction l with
  | nil => simp at h
  | cons b l ih =>
    by_cases hb : b = x
    · subst hb
      rw [List.dropWhile_cons_of_neg (by simp)] at h
      injection h with h1 h2
      subst h1 h2
      exact ⟨rfl, [], rfl, by simp⟩
    · rw [List.dropWhile_cons_of_pos (by simpa using hb)] at h
      obtain ⟨h1, a, h2, h3⟩ := ih h
      exact ⟨h1, b :: a, by rw [h2]; rfl, by simp [h3, Ne.symm hb]⟩

theorem isC_false_iff (k : String) : isC k = .ok false ↔ Coefficient k := by
  unfold isC Coefficient
  constructor
  · intro h
    cases hd : k.toList.dropWhile (fun x => x != '_') with
    | nil => rw [hd] at h; cases h
    | cons y l =>
      rw [hd] at h
      cases l with
      | nil => cases h
      | cons c r =>
        obtain ⟨rfl, a, h1, h2⟩ := dropWhile_eq_first hd
        simp only [List.drop_succ_cons, List.drop_zero] at h
        split_ifs at h with hc
        simp only [Except.ok.injEq, decide_eq_false_iff_not] at h
        exact ⟨a, c, r, h1, h2, h, hc⟩
  · rintro ⟨a, c, r, h1, h2, h3, h4⟩
    rw [h1, dropWhile_first h2]
    simp [h3, h4]

theorem csvRes_ok {lines : List (String × ℝ)} (hn : (lines.map Prod.fst).Nodup) {d : Dict String ℝ} (h : csvRes lines = .ok d) :
    (∀ e ∈ lines, ∃ b, isC e.1 = .ok b) ∧ d = lines.filter (fun e => decide (isC e.1 = .ok false)) := by
  have key : ∀ (lines : List (String × ℝ)) (d0 d : Dict String ℝ),
      lines.foldlM (fun d e => isC e.1 >>= fun b => (.ok (if b then d else d.set e.1 e.2) : Except PyErr _)) d0 = .ok d →
      (∀ e ∈ lines, ∃ b, isC e.1 = .ok b) ∧ d = (lines.filter fun e => decide (isC e.1 = .ok false)).foldl (fun d e => d.set e.1 e.2) d0 := by
    intro lines
    induction lines with
    | nil => intro d0 d h; injection h with h; exact ⟨by simp, h.symm⟩
    | cons e lines ih =>
      intro d0 d h
      rw [List.foldlM_cons] at h
      obtain ⟨d1, h1, h2⟩ := bind_eq_ok h
      obtain ⟨b, hb, h1⟩ := bind_eq_ok h1
      injection h1 with h1
      obtain ⟨i1, i2⟩ := ih d1 d h2
      refine ⟨fun e' he' => ?_, ?_⟩
      · rcases List.mem_cons.1 he' with rfl | h'
        · exact ⟨b, hb⟩
        · exact i1 e' h'
      · rw [i2, ← h1]
        cases b
        · rw [List.filter_cons_of_pos (by simpa using hb)]; rfl
        · rw [List.filter_cons_of_neg (by rw [hb]; simp)]; rfl
  obtain ⟨h1, h2⟩ := key lines [] d h
  refine ⟨h1, ?_⟩
  rw [h2]
  exact Dict.ofPairs_of_nodup _ (hn.sublist (List.filter_sublist.map _))

theorem csvCov_ok {lines : List (String × String × ℝ)} (hn : (lines.map fun e => (e.1, e.2.1)).Nodup) {d : Dict (String × String) ℝ}
    (h : csvCov lines = .ok d) (k m : String) (hk : isC k = .ok false) (hm : isC m = .ok false) (x : ℝ) :
    d.get? (k, m) = some x ↔ (k, m, x) ∈ lines := by
  have key : ∀ (lines : List (String × String × ℝ)), (lines.map fun e => (e.1, e.2.1)).Nodup → ∀ (d0 d : Dict (String × String) ℝ),
      lines.foldlM (fun d e => isC e.1 >>= fun b => if b then (.ok d : Except PyErr _) else
        isC e.2.1 >>= fun b' => .ok (if b' then d else d.set (e.1, e.2.1) e.2.2)) d0 = .ok d →
      (d.get? (k, m) = some x ↔ (k, m, x) ∈ lines ∨ ((∀ y, (k, m, y) ∉ lines) ∧ d0.get? (k, m) = some x)) := by
    intro lines
    induction lines with
    | nil => intro _ d0 d h; injection h with h; subst h; simp
    | cons e lines ih =>
      intro hn d0 d h
      rw [List.map_cons, List.nodup_cons] at hn
      rw [List.foldlM_cons] at h
      obtain ⟨d1, h1, h2⟩ := bind_eq_ok h
      rw [ih hn.2 d1 d h2]
      obtain ⟨b, hb, h1⟩ := bind_eq_ok h1
      obtain ⟨e1, e2, e3⟩ := e
      dsimp only at hb h1 hn
      by_cases he : e1 = k ∧ e2 = m
      · obtain ⟨rfl, rfl⟩ := he
        rw [hk] at hb
        injection hb with hb
        subst hb
        simp only [Bool.false_eq_true, if_false, hm, ok_bind_eq] at h1
        injection h1 with h1
        have hno : ∀ y, (e1, e2, y) ∉ lines := fun y hy => hn.1 (List.mem_map.2 ⟨_, hy, rfl⟩)
        rw [← h1, Dict.get?_set, if_pos rfl]
        constructor
        · rintro (h' | ⟨_, h'⟩)
          · exact absurd h' (hno x)
          · injection h' with h'
            left; rw [h']; exact List.mem_cons_self ..
        · rintro (h' | ⟨h', _⟩)
          · rcases List.mem_cons.1 h' with h' | h'
            · injection h' with _ h'; injection h' with _ h'
              right; exact ⟨hno, by rw [h']⟩
            · exact absurd h' (hno x)
          · exact absurd (List.mem_cons_self ..) (h' e3)
      · have hne : (e1, e2) ≠ (k, m) := fun h => he ⟨congrArg Prod.fst h, congrArg Prod.snd h⟩
        have hd : d1.get? (k, m) = d0.get? (k, m) := by
          cases b
          · simp only [Bool.false_eq_true, if_false] at h1
            obtain ⟨b', _, h1⟩ := bind_eq_ok h1
            injection h1 with h1
            rw [← h1]
            split_ifs
            · rfl
            · rw [Dict.get?_set, if_neg hne]
          · simp only [if_true] at h1
            injection h1 with h1
            rw [h1]
        rw [hd]
        have hmem : ∀ y, (k, m, y) ∈ (e1, e2, e3) :: lines ↔ (k, m, y) ∈ lines := by
          intro y
          rw [List.mem_cons]
          constructor
          · rintro (h | h)
            · injection h with h3 h4; injection h4 with h4 _
              exact absurd ⟨h3.symm, h4.symm⟩ he
            · exact h
          · exact Or.inr
        simp only [hmem]
  have := key lines hn [] d h
  simpa using this

theorem addParam_eq (s : PS FFDist) (ps : List String) (d : FFDist) :
    (s.addParam ps d).st = (s.add ps (.base d)).st ∧ (s.addParam ps d).heap = (s.add ps (.base d)).heap ∧
    (∀ p, p ∈ (s.addParam ps d).reg ↔ p ∈ s.reg ∨ p ∈ ps) ∧ (∀ p, (s.addParam ps d).view p = (s.add ps (.base d)).view p) := by
  obtain ⟨h1, h2, _, _⟩ := C68_parameter_constraint s.reg s.st ps s.heap.length
  have hst : (s.addParam ps d).st = (s.add ps (.base d)).st := h1
  refine ⟨hst, rfl, h2, fun p => ?_⟩
  unfold PS.view
  rw [hst]
  rfl

theorem addParam_good {s : PS FFDist} (hg : s.Good) (ps : List String) (d : FFDist) : (s.addParam ps d).Good := by
  obtain ⟨h1, h2, _, _⟩ := addParam_eq s ps d
  intro p i r h
  rw [h1] at h
  rw [h2]
  exact good_add hg ps (.base d) p i r h

theorem sse_append (process k : String) : process ++ " SSE" ++ " " ++ k = sseName process k := by
  unfold sseName
  rw [String.append_assoc, String.append_assoc]
  congr 1

theorem sse_nodup {process : String} {K : List String} (h : K.Nodup) : (K.map (sseName process)).Nodup :=
  h.map fun x y hxy => by simpa [sseName] using hxy

/-- **C148 (lattice results for `B → V`)** The results that are not `c` coefficients become the components of one multivariate
normal distribution with the listed central values.  The covariance is symmetric: an entry listed once, in either order,
is used for both orders, an entry that is not listed is zero, and an entry listed in both orders counts twice.  Every
variance must be listed.  No other parameter is touched. -/
theorem C148_lattice (fileRes : List (String × ℝ)) (fileCov : List (String × String × ℝ)) (process : String) (s s' : PS FFDist)
    (hg : s.Good) (hr : (fileRes.map Prod.fst).Nodup) (hc : (fileCov.map fun e => (e.1, e.2.1)).Nodup)
    (h : loadLattice fileRes fileCov process s = (s', none)) :
    ∃ (K : List String) (cen : Fin K.length → Fl) (cov : Matrix (Fin K.length) (Fin K.length) ℝ),
      K.Nodup ∧ (∀ k, k ∈ K ↔ Coefficient k ∧ k ∈ fileRes.map Prod.fst) ∧
      (∀ i : Fin K.length, s'.view (sseName process K[i]) = some (i.1, .base (.mvn K.length cen cov))) ∧
      (∀ (i : Fin K.length) v, (K[i], v) ∈ fileRes → cen i = some v) ∧
      (∀ (i j : Fin K.length) x, (K[i], K[j], x) ∈ fileCov → (i ≠ j → ∀ y, (K[j], K[i], y) ∉ fileCov) → cov i j = x ∧ cov j i = x) ∧
      (∀ i j : Fin K.length, (∀ x, (K[i], K[j], x) ∉ fileCov) → (∀ x, (K[j], K[i], x) ∉ fileCov) → cov i j = 0) ∧
      (∀ (i j : Fin K.length) x y, i ≠ j → (K[i], K[j], x) ∈ fileCov → (K[j], K[i], y) ∈ fileCov → cov i j = x + y) ∧
      (∀ i : Fin K.length, ∃ x, (K[i], K[i], x) ∈ fileCov) ∧ cov.PosDef ∧
      (∀ p, p ∉ K.map (sseName process) → s'.view p = s.view p) ∧
      (∀ p, p ∈ s'.reg ↔ p ∈ s.reg ∨ p ∈ K.map (sseName process)) ∧ s'.Good := by
  unfold loadLattice at h
  split at h
  · cases h
  rename_i x hx
  obtain ⟨res, hres, hx⟩ := bind_eq_ok hx
  obtain ⟨covd, hcov, hx⟩ := bind_eq_ok hx
  obtain ⟨d, hd, hx⟩ := bind_eq_ok hx
  injection hx with hx
  subst hx
  simp only [Prod.mk.injEq, and_true] at h
  obtain ⟨r1, r2⟩ := csvRes_ok hr hres
  generalize hK : sortedKeys res = K at h hd
  have hperm : K.Perm res.keys := by rw [← hK]; exact List.mergeSort_perm _ _
  have hwf : (res.keys).Nodup := by
    rw [r2]; exact hr.sublist (List.filter_sublist.map _)
  have hKn : K.Nodup := hperm.nodup_iff.2 hwf
  have hKm : ∀ k, k ∈ K ↔ Coefficient k ∧ k ∈ fileRes.map Prod.fst := by
    intro k
    rw [hperm.mem_iff, r2]
    unfold Dict.keys
    rw [List.mem_map, ← isC_false_iff, List.mem_map]
    constructor
    · rintro ⟨e, he, rfl⟩
      rw [List.mem_filter, decide_eq_true_eq] at he
      exact ⟨he.2, e, he.1, rfl⟩
    · rintro ⟨h1, e, he, rfl⟩
      exact ⟨e, List.mem_filter.2 ⟨he, by simpa using h1⟩, rfl⟩
  have hKc : ∀ i : Fin K.length, isC K[i] = .ok false := fun i => (isC_false_iff _).2 ((hKm _).1 (List.getElem_mem _)).1
  unfold distLattice at hd
  obtain ⟨diag, hdiag, hd⟩ := bind_eq_ok hd
  obtain ⟨V, rfl, hV1, hV2⟩ := mkFF_ok hd
  have hsymm : ∀ i j : Fin K.length,
      (some ((covd.get? (K[i], K[j])).getD 0 + (covd.get? (K[j], K[i])).getD 0 - if i = j then diag.getD i 0 else 0) : Fl) =
      some ((covd.get? (K[j], K[i])).getD 0 + (covd.get? (K[i], K[j])).getD 0 - if j = i then diag.getD j 0 else 0) := by
    intro i j
    by_cases hij : i = j
    · subst hij; rfl
    · rw [if_neg hij, if_neg (Ne.symm hij)]; congr 1; ring
  obtain ⟨hV, hpd⟩ := hV2 hsymm
  have hVs : ∀ i j, V i j = V j i := isHermitian_iff_symm.1 hpd.1
  have hdiag' : ∀ i : Fin K.length, ∃ x, covd.get? (K[i], K[i]) = some x ∧ diag.getD i 0 = x := by
    intro i
    have h3 := (mapM_ok_iff _ _ _).1 hdiag
    have hlen := h3.length_eq
    have hi : i.1 < diag.length := hlen ▸ i.2
    have h4 : diagOf covd K[i] = .ok diag[i.1] := (List.forall₂_iff_get.1 h3).2 i.1 i.2 hi
    unfold diagOf at h4
    split at h4
    · rename_i v hv
      injection h4 with h4
      refine ⟨v, hv, ?_⟩
      rw [h4]; simp [List.getD, List.getElem?_eq_getElem hi]
    · cases h4
  have hget := fun (i j : Fin K.length) x => csvCov_ok hc hcov K[i] K[j] (hKc i) (hKc j) x
  have hname : (K.map fun k => process ++ " SSE" ++ " " ++ k) = K.map (sseName process) :=
    List.map_congr_left fun k _ => sse_append process k
  rw [hname] at h
  obtain ⟨_, _, a3, a4⟩ := addParam_eq s (K.map (sseName process)) (.mvn K.length (fun i => res.get? K[i]) V)
  have hval : ∀ i j : Fin K.length, V i j =
      (covd.get? (K[i], K[j])).getD 0 + (covd.get? (K[j], K[i])).getD 0 - if i = j then diag.getD i 0 else 0 := fun i j =>
    (Option.some.inj (hV i j)).symm
  refine ⟨K, fun i => res.get? K[i], V, hKn, hKm, fun i => ?_, fun i v hv => ?_, fun i j x hx hno => ?_, fun i j h1 h2 => ?_,
    fun i j x y hij hx hy => ?_, fun i => ?_, hpd, fun p hp => ?_, fun p => ?_, ?_⟩
  · rw [← h, a4]
    have hi := view_names hg (sse_nodup (process := process) hKn) (.base (.mvn K.length (fun i => res.get? K[i]) V)) (i.cast (List.length_map ..).symm)
    have e1 : (K.map (sseName process))[(i.cast (List.length_map (sseName process)).symm : Fin _)] = sseName process K[i] := by simp
    rw [e1] at hi
    exact hi
  · apply Dict.get?_of_mem hwf
    rw [r2, List.mem_filter]
    exact ⟨hv, by simpa using hKc i⟩
  · have h1 : V i j = x := by
      rw [hval, (hget i j x).2 hx]
      by_cases hij : i = j
      · subst hij
        obtain ⟨y, hy, hy'⟩ := hdiag' i
        rw [(hget i i x).2 hx] at hy
        injection hy with hy
        rw [(hget i i x).2 hx, if_pos rfl, hy', hy]
        simp
      · have : covd.get? (K[j], K[i]) = none := by
          cases hg' : covd.get? (K[j], K[i]) with
          | none => rfl
          | some y => exact absurd ((hget j i y).1 hg') (hno hij y)
        rw [this, if_neg hij]; simp
    exact ⟨h1, by rw [hVs j i]; exact h1⟩
  · have hz : ∀ a b : Fin K.length, (∀ x, (K[a], K[b], x) ∉ fileCov) → covd.get? (K[a], K[b]) = none := by
      intro a b hab
      cases hg' : covd.get? (K[a], K[b]) with
      | none => rfl
      | some y => exact absurd ((hget a b y).1 hg') (hab y)
    have hij : i ≠ j := by
      rintro rfl
      obtain ⟨y, hy, _⟩ := hdiag' i
      exact h1 y ((hget i i y).1 hy)
    rw [hval, hz i j h1, hz j i h2, if_neg hij]; simp
  · rw [hval, (hget i j x).2 hx, (hget j i y).2 hy, if_neg hij]; simp
  · obtain ⟨y, hy, _⟩ := hdiag' i
    exact ⟨y, (hget i i y).1 hy⟩
  · rw [← h, a4, view_other hg _ hp]
  · rw [← h]; exact a3 p
  · rw [← h]; exact addParam_good hg _ _

/-- **C148 (lattice results, failure)** If reading the lattice results fails, nothing is changed. -/
theorem C148_lattice_failure (fileRes : List (String × ℝ)) (fileCov : List (String × String × ℝ)) (process : String) (s s' : PS FFDist)
    (e : PyErr) (h : loadLattice fileRes fileCov process s = (s', some e)) : s' = s := by
  unfold loadLattice at h
  split at h
  · simp only [Prod.mk.injEq] at h; exact h.1.symm
  · simp at h

end Verif.Parameters
