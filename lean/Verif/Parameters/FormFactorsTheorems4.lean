import Verif.Parameters.FormFactorsTheorems3
/-!
# C148: files with a list of names, and `Λb → Λ`
-/
set_option linter.unusedSectionVars false
set_option linter.unusedSimpArgs false
set_option linter.unusedVariables false
namespace Verif.Parameters
open Verif.Py Verif.Constraints Verif.Probability

/-! ## Specification -/

/-- The names in `L` are, in this order, the components of one multivariate normal distribution with these central values and
this positive definite covariance matrix; nothing else has changed. (Specification.) -/
structure LoadedList {n : ℕ} (L : List String) (central : Fin n → Fl) (V : Matrix (Fin n) (Fin n) ℝ) (s s' : PS FFDist) : Prop where
  comp : ∀ i : Fin L.length, s'.view L[i] = some (i.1, .base (.mvn n central V))
  pos : V.PosDef
  other : ∀ p, p ∉ L → s'.view p = s.view p

/-- The new name of a form factor of `Λb → Λ`. (Specification.) -/
def newNames : List (String × String) :=
  [("f0", "fVt"), ("fperp", "fVperp"), ("fplus", "fV0"), ("g0", "fAt"), ("gperp", "fAperp"), ("gplus", "fA0"), ("gpp", "fA0"),
   ("hperp", "fTperp"), ("hplus", "fT0"), ("htildeperp", "fT5perp"), ("htildeplus", "fT50"), ("htildepp", "fT50")]

/-- The first three characters are kept, the rest is renamed. (Specification.) -/
def Renamed (k n : String) : Prop :=
  ∃ (a : List Char) (e : String × String), e ∈ newNames ∧ k.toList = a ++ e.1.toList ∧ a.length = 3 ∧ n = String.ofList a ++ e.2

/-! ## Lemmas -/

theorem lastOcc_short {m l : List Char} (h : l.length < m.length) : lastOcc m l = none := by
  induction l with
  | nil => rfl
  | cons c l ih =>
    unfold lastOcc
    rw [ih (by simp at h; omega)]
    have : m.isPrefixOf (c :: l) = false := by
      rw [Bool.eq_false_iff]
      intro hp
      have := (List.isPrefixOf_iff_prefix.1 hp).length_le
      omega
    simp [this]

theorem lastOcc_end {m : List Char} (hm : m ≠ []) (x : List Char) : lastOcc m (x ++ m) = some (x, []) := by
  induction x with
  | nil =>
    cases m with
    | nil => exact absurd rfl hm
    | cons c l =>
      rw [List.nil_append]
      unfold lastOcc
      rw [lastOcc_short (by simp)]
      simp
  | cons c x ih =>
    rw [List.cons_append]
    unfold lastOcc
    rw [ih]

theorem lastOcc_none {c : Char} {l : List Char} (h : c ∉ l) : lastOcc [c] l = none := by
  induction l with
  | nil => rfl
  | cons d l ih =>
    rw [List.mem_cons, not_or] at h
    unfold lastOcc
    rw [ih h.2]
    simp [List.isPrefixOf, h.1]

theorem lastOcc_char {c : Char} {x y : List Char} (h : c ∉ y) : lastOcc [c] (x ++ c :: y) = some (x, y) := by
  induction x with
  | nil =>
    rw [List.nil_append]
    unfold lastOcc
    rw [lastOcc_none h]
    simp [List.isPrefixOf]
  | cons d x ih =>
    rw [List.cons_append]
    unfold lastOcc
    rw [ih]

/-- **C148 (names in files from EOS)** `P::alpha^F_N@BSZ2015` becomes `P BSZ aN_F`; a name without colon is kept. -/
theorem C148_eos_names (P F N : List Char) (hP : ':' ∉ P) (hN : '_' ∉ N) :
    renameEOS (P ++ "::alpha^".toList ++ F ++ '_' :: N ++ "@BSZ2015".toList) = P ++ " BSZ a".toList ++ N ++ '_' :: F ∧
    renameEOS P = P := by
  have hm : matchEOS (F ++ '_' :: N ++ "@BSZ2015".toList) = some (" BSZ a".toList ++ N ++ '_' :: F) := by
    unfold matchEOS
    rw [lastOcc_end (by decide)]
    simp only
    rw [lastOcc_char hN]
    simp
  constructor
  · have : P ++ "::alpha^".toList ++ F ++ '_' :: N ++ "@BSZ2015".toList =
      P ++ ("::alpha^".toList ++ (F ++ '_' :: N ++ "@BSZ2015".toList)) := by simp only [List.append_assoc]
    rw [this]
    clear this
    generalize F ++ '_' :: N ++ "@BSZ2015".toList = r at hm
    induction P with
    | nil =>
      have e : "::alpha^".toList = [':', ':', 'a', 'l', 'p', 'h', 'a', '^'] := by decide
      rw [List.nil_append, e, List.cons_append]
      unfold renameEOS
      rw [e]
      simp only [List.cons_append, List.nil_append, List.drop_succ_cons, List.drop_zero]
      rw [if_pos (by simp [List.isPrefixOf]), hm]
    | cons c P ih =>
      rw [List.mem_cons, not_or] at hP
      rw [List.cons_append]
      unfold renameEOS
      rw [if_neg, ih hP.2]
      · rfl
      · have e : "::alpha^".toList = [':', ':', 'a', 'l', 'p', 'h', 'a', '^'] := by decide
        rw [e]
        simp [List.isPrefixOf, hP.1]
  · clear hm
    induction P with
    | nil => rfl
    | cons c P ih =>
      rw [List.mem_cons, not_or] at hP
      unfold renameEOS
      rw [if_neg, ih hP.2]
      have e : "::alpha^".toList = [':', ':', 'a', 'l', 'p', 'h', 'a', '^'] := by decide
      rw [e]
      simp [List.isPrefixOf, hP.1]

theorem dropColons_none {l : List Char} (h : ':' ∉ l) : dropColons l = l := by
  induction l with
  | nil => rfl
  | cons c l ih =>
    rw [List.mem_cons, not_or] at h
    unfold dropColons
    split
    · rename_i heq; injection heq with h1 h2; exact absurd h1.symm h.1
    · rename_i heq
      injection heq with h1 h2
      subst h1 h2
      rw [ih h.2]
    · rename_i heq; cases heq

theorem dropColons_append {a l : List Char} (h : ':' ∉ a) : dropColons (a ++ l) = a ++ dropColons l := by
  induction a with
  | nil => rfl
  | cons c a ih =>
    rw [List.mem_cons, not_or] at h
    rw [List.cons_append]
    conv_lhs => unfold dropColons
    split
    · rename_i heq; injection heq with h1 h2; exact absurd h1.symm h.1
    · rename_i heq
      injection heq with h1 h2
      subst h1 h2
      rw [ih h.2]; rfl
    · rename_i heq; cases heq

theorem takeWhile_first {a r : List Char} {x : Char} (h : x ∉ a) : (a ++ x :: r).takeWhile (fun y => y != x) = a := by
  induction a with
  | nil => simp
  | cons b a ih =>
    rw [List.mem_cons, not_or] at h
    rw [List.cons_append, List.takeWhile_cons_of_pos (by simpa using fun e => h.1 e.symm), ih h.2]

/-- **C148 (names in the file for `B → π`)** `P::fR` becomes `P BCL fR` (`P` does not contain `f`) and `P::bR` becomes `P BCL bR` if
there is no `f` in the name and no `b` in `P`; a name with neither letter is refused. -/
theorem C148_lmvd_names (P R : List Char) (hP : ':' ∉ P) (hR : ':' ∉ R) :
    ('f' ∉ P → renameLMVD (dropColons (P ++ ':' :: ':' :: 'f' :: R)) = .ok (P ++ " BCL ".toList ++ 'f' :: R)) ∧
    ('f' ∉ P → 'f' ∉ R → 'b' ∉ P → renameLMVD (dropColons (P ++ ':' :: ':' :: 'b' :: R)) = .ok (P ++ " BCL ".toList ++ 'b' :: R)) ∧
    ('f' ∉ P → 'f' ∉ R → 'b' ∉ P → 'b' ∉ R → renameLMVD (dropColons (P ++ ':' :: ':' :: R)) = .error .valueError) := by
  have hd : ∀ l : List Char, ':' ∉ l → dropColons (P ++ ':' :: ':' :: l) = P ++ l := fun l hl => by
    rw [dropColons_append hP, dropColons, dropColons_none hl]
  refine ⟨fun h1 => ?_, fun h1 h2 h3 => ?_, fun h1 h2 h3 h4 => ?_⟩
  · rw [hd _ (by simp [hR])]
    unfold renameLMVD
    simp only
    rw [if_pos (by simp), takeWhile_first h1, dropWhile_first h1]
  · rw [hd _ (by simp [hR])]
    unfold renameLMVD
    simp only
    rw [if_neg (by simp [h1, h2]), if_pos (by simp), takeWhile_first h3, dropWhile_first h3]
  · rw [hd _ hR]
    unfold renameLMVD
    simp only
    rw [if_neg (by simp [h1, h2]), if_neg (by simp [h3, h4])]

theorem loadedList_add {n : ℕ} {L : List String} (hL : L.Nodup) {s : PS FFDist} (hg : s.Good) (central : Fin n → Fl)
    (V : Matrix (Fin n) (Fin n) ℝ) (hV : V.PosDef) : LoadedList L central V s (s.add L (.base (.mvn n central V))) :=
  ⟨fun i => view_names hg hL _ i, hV, fun p hp => view_other hg _ hp⟩

theorem loadedList_addParam {n : ℕ} {L : List String} (hL : L.Nodup) {s : PS FFDist} (hg : s.Good) (central : Fin n → Fl)
    (V : Matrix (Fin n) (Fin n) ℝ) (hV : V.PosDef) : LoadedList L central V s (s.addParam L (.mvn n central V)) := by
  obtain ⟨_, _, a3, a4⟩ := addParam_eq s L (.mvn n central V)
  have h := loadedList_add hL hg central V hV
  exact ⟨fun i => by rw [a4]; exact h.comp i, hV, fun p hp => by rw [a4]; exact h.other p hp⟩

/-- **C148 (BCL)** The parameters listed in a BCL file get the central values of the file and the covariance that follows from
its uncertainties and correlations, and all of them are registered; if the file is refused, nothing changes. -/
theorem C148_bcl {n : ℕ} (names : List String) (central unc : Fin n → ℝ) (corr : Matrix (Fin n) (Fin n) ℝ) (s s' : PS FFDist)
    (r : Option PyErr) (hg : s.Good) (hn : names.Nodup) (hs : ∀ i j, corr i j = corr j i)
    (h : loadBCL names central unc corr s = (s', r)) :
    (r = none ↔ Matrix.PosDef (fun i j => unc i * unc j * corr i j : Matrix (Fin n) (Fin n) ℝ)) ∧
    (r = none → LoadedList names (fun i => some (central i)) (fun i j => unc i * unc j * corr i j) s s' ∧
      ∀ p, p ∈ s'.reg ↔ p ∈ s.reg ∨ p ∈ names) ∧ (r ≠ none → s' = s) := by
  unfold loadBCL at h
  split at h
  · rename_i e he
    simp only [Prod.mk.injEq] at h
    obtain ⟨rfl, rfl⟩ := h
    refine ⟨⟨fun h => (by cases h), fun hV => ?_⟩, fun h => (by cases h), fun _ => rfl⟩
    rw [mkFF_of _ _ _ (fun _ _ => rfl) hV] at he
    cases he
  · rename_i d hd
    simp only [Prod.mk.injEq] at h
    obtain ⟨rfl, rfl⟩ := h
    obtain ⟨V, rfl, -, hV⟩ := mkFF_ok hd
    obtain ⟨h1, h2⟩ := hV (fun i j => by rw [hs i j, mul_comm (unc i)])
    have e : (fun i j => unc i * unc j * corr i j : Matrix (Fin n) (Fin n) ℝ) = V := by
      funext i j; exact Option.some.inj (h1 i j)
    rw [e]
    refine ⟨⟨fun _ => h2, fun _ => rfl⟩, fun _ => ⟨loadedList_addParam hn hg _ V h2, fun p => ?_⟩, fun h => absurd rfl h⟩
    exact (addParam_eq s names (.mvn n _ V)).2.2.1 p

/-- **C148 (LMVD)** Likewise for the file for `B → π`, whose covariance matrix is used as it is; a name that cannot be converted
makes the loading fail. -/
theorem C148_lmvd {n : ℕ} (obs : List String) (medians : Fin n → ℝ) (cov : Matrix (Fin n) (Fin n) ℝ) (s s' : PS FFDist)
    (r : Option PyErr) (hg : s.Good) (hs : ∀ i j, cov i j = cov j i) (h : loadLMVD obs medians cov s = (s', r)) :
    (r = none → ∃ L : List String, List.Forall₂ (fun o x => renameLMVD (dropColons o.toList) = .ok x.toList) obs L ∧
      (L.Nodup → LoadedList L (fun i => some (medians i)) cov s s') ∧ ∀ p, p ∈ s'.reg ↔ p ∈ s.reg ∨ p ∈ L) ∧
    (r = none ↔ (∀ o ∈ obs, renameLMVD (dropColons o.toList) ≠ .error .valueError) ∧ cov.PosDef) ∧ (r ≠ none → s' = s) := by
  have herr : ∀ o : List Char, renameLMVD o ≠ .error .valueError ↔ ∃ x, renameLMVD o = .ok x := by
    intro o
    unfold renameLMVD
    simp only
    split_ifs <;> simp
  unfold loadLMVD at h
  split at h
  · rename_i e he
    simp only [Prod.mk.injEq] at h
    obtain ⟨rfl, rfl⟩ := h
    refine ⟨fun h => (by cases h), ⟨fun h => (by cases h), fun ⟨h1, h2⟩ => ?_⟩, fun _ => rfl⟩
    obtain ⟨ns, hns⟩ := mapM_some obs (fun o => renameLMVD (dropColons o.toList)) fun o ho => (herr _).1 (h1 o ho)
    rw [hns, mkFF_of _ _ _ (fun _ _ => rfl) h2] at he
    cases he
  · rename_i x hx
    simp only [Prod.mk.injEq] at h
    obtain ⟨rfl, rfl⟩ := h
    obtain ⟨ns, hns, hx⟩ := bind_eq_ok hx
    obtain ⟨d, hd, hx⟩ := bind_eq_ok hx
    injection hx with hx
    subst hx
    obtain ⟨V, rfl, -, hV⟩ := mkFF_ok hd
    obtain ⟨h1, h2⟩ := hV (fun i j => by rw [hs i j])
    have e : cov = V := by
      funext i j; exact Option.some.inj (h1 i j)
    subst e
    have h3 := (mapM_ok_iff _ _ _).1 hns
    refine ⟨fun _ => ⟨ns.map String.ofList, ?_, fun hn => loadedList_addParam hn hg _ cov h2, fun p => ?_⟩, ⟨fun _ => ⟨fun o ho => ?_, h2⟩, fun _ => rfl⟩,
      fun h => absurd rfl h⟩
    · rw [List.forall₂_map_right_iff]
      exact h3.imp fun a b hab => by rw [hab]; simp
    · exact (addParam_eq s _ (.mvn n _ cov)).2.2.1 p
    · rw [herr]
      obtain ⟨i, hi, rfl⟩ := List.getElem_of_mem ho
      exact ⟨_, (List.forall₂_iff_get.1 h3).2 i hi (h3.length_eq ▸ hi)⟩

/-- **C148 (EOS)** The parameters of a file from EOS get its means and covariance under the converted names; they are not
registered as parameters; a covariance matrix that is not positive definite changes nothing. -/
theorem C148_eos {n : ℕ} (obs : List String) (means : Fin n → ℝ) (cov : Matrix (Fin n) (Fin n) ℝ) (s s' : PS FFDist)
    (r : Option PyErr) (hg : s.Good) (hs : ∀ i j, cov i j = cov j i) (h : loadEOS obs means cov s = (s', r)) :
    (r = none → ∃ L : List String, List.Forall₂ (fun o x => x.toList = renameEOS o.toList) obs L ∧
      (L.Nodup → LoadedList L (fun i => some (means i)) cov s s')) ∧
    (r = none ↔ cov.PosDef) ∧ (r ≠ none → s' = s) ∧ s'.reg = s.reg := by
  unfold loadEOS at h
  split at h
  · rename_i e he
    simp only [Prod.mk.injEq] at h
    obtain ⟨rfl, rfl⟩ := h
    refine ⟨fun h => (by cases h), ⟨fun h => (by cases h), fun h2 => ?_⟩, fun _ => rfl, rfl⟩
    rw [mkFF_of _ _ _ (fun _ _ => rfl) h2] at he
    cases he
  · rename_i d hd
    simp only [Prod.mk.injEq] at h
    obtain ⟨rfl, rfl⟩ := h
    obtain ⟨V, rfl, -, hV⟩ := mkFF_ok hd
    obtain ⟨h1, h2⟩ := hV (fun i j => by rw [hs i j])
    have e : cov = V := by
      funext i j; exact Option.some.inj (h1 i j)
    subst e
    refine ⟨fun _ => ⟨obs.map fun o => String.ofList (renameEOS o.toList), ?_, fun hn => loadedList_add hn hg _ cov h2⟩, ⟨fun _ => h2, fun _ => rfl⟩,
      fun h => absurd rfl h, ?_⟩
    · rw [List.forall₂_map_right_iff]
      exact List.forall₂_same.2 fun a _ => by simp
    · rfl

end Verif.Parameters
