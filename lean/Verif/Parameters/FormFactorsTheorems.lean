import Verif.Parameters.FormFactors
import Verif.Parameters.Theorems
import Verif.Constraints.Theorems2
import Verif.Probability.MultivariateTheorems
/-!
# C148: form factor parameters read from files
-/
set_option linter.unusedSectionVars false
set_option linter.unusedSimpArgs false
set_option linter.unusedVariables false
namespace Verif.Parameters
open Verif.Py Verif.Constraints Verif.Probability

/-! ## Specification -/

/-- The independent coefficients (form factor, coefficient) for `B → P`: all but `a0` of `f0`. (Specification.) -/
def indepP : List (String × String) :=
  [("f+", "a0"), ("f+", "a1"), ("f+", "a2"), ("fT", "a0"), ("fT", "a1"), ("fT", "a2"), ("f0", "a1"), ("f0", "a2")]

/-- The independent coefficients for `B → V`: all but `a0` of `A12` and of `T2`. (Specification.) -/
def indepV : List (String × String) :=
  [("A0", "a0"), ("A0", "a1"), ("A0", "a2"), ("A1", "a0"), ("A1", "a1"), ("A1", "a2"), ("A12", "a1"), ("A12", "a2"),
   ("V", "a0"), ("V", "a1"), ("V", "a2"), ("T1", "a0"), ("T1", "a1"), ("T1", "a2"), ("T2", "a1"), ("T2", "a2"),
   ("T23", "a0"), ("T23", "a1"), ("T23", "a2")]

/-- Entry of a table, `nan` if there is none. (Specification.) -/
def entryOfTable (t : String → Option (String → Fl)) (ff a : String) : Fl := (t ff).elim none fun g => g a

/-- Name of the parameter for a coefficient. (Specification.) -/
def coeffName (process : String) (e : String × String) : String := process ++ (" BSZ " ++ (e.2 ++ ("_" ++ e.1)))

/-- The two cases. (Specification.) -/
inductive IsBSZ : Scheme → List (String × String) → Prop
  | P : IsBSZ schemeP indepP
  | V : IsBSZ schemeV indepV

/-- The file gives the same correlation for a pair of coefficients in either order. (Specification.) -/
def CorrSymm (t : Tables) (K : List (String × String)) : Prop :=
  ∀ e ∈ K, ∀ f ∈ K, entryOfTable t.corr (e.1 ++ f.1) (e.2 ++ f.2) = entryOfTable t.corr (f.1 ++ e.1) (f.2 ++ e.2)

/-- The parameters of a process are the components of one distribution with the central values and the covariance (product of
the two uncertainties and the correlation) of the file. (Specification.) -/
def Loaded (t : Tables) (process : String) (K : List (String × String)) (s : PS FFDist) : Prop :=
  ∃ cov : Matrix (Fin K.length) (Fin K.length) ℝ,
    (∀ i : Fin K.length, s.view (coeffName process K[i]) =
      some (i.1, .base (.mvn K.length (fun k => entryOfTable t.central K[k].1 K[k].2) cov))) ∧
    (∀ i j : Fin K.length, ∃ u v r, entryOfTable t.unc K[i].1 K[i].2 = some u ∧ entryOfTable t.unc K[j].1 K[j].2 = some v ∧
      entryOfTable t.corr (K[j].1 ++ K[i].1) (K[j].2 ++ K[i].2) = some r ∧ (CorrSymm t K → cov i j = u * v * r)) ∧
    (CorrSymm t K → cov.PosDef)

/-! ## Lemmas -/

theorem look_ok {t : String → Option (String → Fl)} {ff a : String} {v : Fl} (h : look t ff a = .ok v) :
    v = entryOfTable t ff a := by
  unfold look at h; unfold entryOfTable
  cases ht : t ff with
  | none => rw [ht] at h; cases h
  | some g => rw [ht] at h; injection h with h; exact h.symm

theorem mapM_look {α : Type} {f : α → Except PyErr β} {g : α → β} (hf : ∀ a b, f a = .ok b → b = g a) {l : List α} {r : List β}
    (h : l.mapM f = .ok r) : r = l.map g := by
  have := (mapM_ok_iff _ _ _).1 h
  clear h
  induction this with
  | nil => rfl
  | cons h1 _ ih => rw [List.map_cons, hf _ _ h1, ih]

theorem npDelete_map {α β : Type} (f : α → β) (l : List α) (pos : List ℕ) :
    npDelete (l.map f) pos = (npDelete l pos).map f := by
  unfold npDelete
  rw [List.zipIdx_map, List.filter_map, List.map_map, List.map_map]
  rfl

theorem kept_eq {c : Scheme} {K : List (String × String)} (h : IsBSZ c K) : npDelete c.ffA c.positions = K := by
  cases h <;> decide +kernel

theorem names_eq {c : Scheme} {K : List (String × String)} (h : IsBSZ c K) (process : String) :
    namesBSZ c process = K.map (coeffName process) := by
  have hinj : Function.Injective fun x : String => process ++ " BSZ" ++ " " ++ x := by
    intro x y hxy
    simpa using hxy
  have key : ∀ (fx : List (String × String)) (l : List String),
      fx.foldl (fun l e => l.erase (process ++ " BSZ" ++ " " ++ (e.2 ++ "_" ++ e.1))) (l.map fun x => process ++ " BSZ" ++ " " ++ x) =
      (fx.foldl (fun l e => l.erase (e.2 ++ "_" ++ e.1)) l).map fun x => process ++ " BSZ" ++ " " ++ x := by
    intro fx
    induction fx with
    | nil => intro l; rfl
    | cons e fx ih =>
      intro l
      rw [List.foldl_cons, List.foldl_cons, ← ih]
      congr 1
      exact (List.map_erase hinj _).symm
  have h2 : c.fixed.foldl (fun l e => l.erase (e.2 ++ "_" ++ e.1)) c.aFF = K.map fun e => e.2 ++ "_" ++ e.1 := by
    cases h <;> decide +kernel
  unfold namesBSZ
  rw [key, h2, List.map_map]
  apply List.map_congr_left
  intro e _
  simp only [Function.comp, coeffName, String.append_assoc]
  rfl

theorem coeffName_inj {process : String} {K} {c} (h : IsBSZ c K) : (K.map (coeffName process)).Nodup := by
  have h1 : (K.map fun e => (" BSZ " ++ (e.2 ++ ("_" ++ e.1)))).Nodup := by
    cases h <;> decide +kernel
  have : K.map (coeffName process) = (K.map fun e => (" BSZ " ++ (e.2 ++ ("_" ++ e.1)))).map (process ++ ·) := by
    rw [List.map_map]; rfl
  rw [this]
  exact h1.map (fun x y hxy => by simpa using hxy)

theorem view_register (s : PS FFDist) (p q : String) :
    (register s p).view q = if p ∈ s.reg ∧ p = q then none else s.view q := by
  unfold register
  by_cases hp : p ∈ s.reg
  · simp only [hp, if_true, true_and]
    unfold PS.view removeConstraint
    simp only [Dict.get?_erase]
    by_cases h : p = q
    · simp [h]
    · simp [h, Ne.symm h]
  · simp only [hp, if_false, false_and]
    rfl

theorem good_register {s : PS FFDist} (h : s.Good) (p : String) : (register s p).Good := by
  intro q i r hq
  unfold register at hq ⊢
  split_ifs at hq ⊢
  · unfold removeConstraint at hq
    simp only [Dict.get?_erase] at hq
    split_ifs at hq
    exact h q i r hq
  · exact h q i r hq

theorem mem_register (s : PS FFDist) (p q : String) : q ∈ (register s p).reg ↔ q ∈ s.reg ∨ q = p := by
  unfold register
  split_ifs with h
  · constructor
    · exact Or.inl
    · rintro (h' | rfl)
      · exact h'
      · exact h
  · simp

/-- Registering a list of parameters. -/
theorem register_all (l : List String) (s : PS FFDist) (hg : s.Good) :
    (l.foldl register s).Good ∧ (∀ q, q ∈ (l.foldl register s).reg ↔ q ∈ s.reg ∨ q ∈ l) ∧
    (∀ q, q ∉ l → (l.foldl register s).view q = s.view q) ∧
    (∀ q, q ∈ l → q ∈ s.reg → (l.foldl register s).view q = none) := by
  induction l generalizing s with
  | nil => exact ⟨hg, by simp, by simp, by simp⟩
  | cons p l ih =>
    obtain ⟨h1, h2, h3, h4⟩ := ih (register s p) (good_register hg p)
    rw [List.foldl_cons]
    refine ⟨h1, fun q => ?_, fun q hq => ?_, fun q hq hr => ?_⟩
    · rw [h2, mem_register, List.mem_cons, or_assoc]
    · rw [List.mem_cons, not_or] at hq
      rw [h3 q hq.2, view_register, if_neg (fun h => hq.1 h.2.symm)]
    · by_cases hl : q ∈ l
      · exact h4 q hl ((mem_register s p q).2 (Or.inl hr))
      · rcases List.mem_cons.1 hq with rfl | h
        · rw [h3 q hl, view_register, if_pos ⟨hr, rfl⟩]
        · exact absurd h hl

theorem view_names {s : PS FFDist} (hg : s.Good) {l : List String} (hn : l.Nodup) (d : PD FFDist) (i : Fin l.length) :
    (s.add l d).view l[i] = some (i.1, d) := by
  have hm : l[i] ∈ l := List.getElem_mem _
  have hi : l.idxOf l[i] = i.1 := hn.idxOf_getElem i.1 i.2
  rw [view_add hg, lastIdx_of_nodup hn hm, hi]

theorem view_other {s : PS FFDist} (hg : s.Good) {l : List String} (d : PD FFDist) {p : String} (hp : p ∉ l) :
    (s.add l d).view p = s.view p := by
  rw [view_add hg, (lastIdx_eq_none_iff _ _).2 hp]

theorem mkFF_ok {n : ℕ} {central : Fin n → Fl} {cov : Fin n → Fin n → Fl} {d : FFDist} (h : mkFF n central cov = .ok d) :
    ∃ V : Matrix (Fin n) (Fin n) ℝ, d = .mvn n central V ∧ (∀ i j, ∃ x, cov i j = some x) ∧
      ((∀ i j, cov i j = cov j i) → (∀ i j, cov i j = some (V i j)) ∧ V.PosDef) := by
  unfold mkFF at h
  split_ifs at h with hn
  push Not at hn
  obtain ⟨m, hm, h⟩ := bind_eq_ok h
  injection h with h
  subst h
  have hx : ∀ i j, ∃ x, cov i j = some x := fun i j => Option.ne_none_iff_exists'.1 (hn i j)
  refine ⟨m.cov, rfl, hx, fun hs => ?_⟩
  have hs' : ∀ i j, (fun i j => (cov i j).getD 0 : Matrix (Fin n) (Fin n) ℝ) i j = (fun i j => (cov i j).getD 0 : Matrix (Fin n) (Fin n) ℝ) j i :=
    fun i j => by simp only [hs i j]
  have hm' := finish_eq (hm : MVN.finish _ = _)
  have hc : m.cov = fun i j => (cov i j).getD 0 := by rw [hm']; exact symmetrise_symm hs'
  refine ⟨fun i j => ?_, ?_⟩
  · rw [hc]
    obtain ⟨x, hx⟩ := hx i j
    simp [hx]
  · rw [hc]
    exact (C42_positive_definite _ true _ hs' none .none).1 ⟨m, hm⟩

theorem mkFF_of {n : ℕ} (central : Fin n → Fl) (cov : Fin n → Fin n → Fl) (V : Matrix (Fin n) (Fin n) ℝ)
    (h : ∀ i j, cov i j = some (V i j)) (hV : V.PosDef) : mkFF n central cov = .ok (.mvn n central V) := by
  have hs : ∀ i j, V i j = V j i := isHermitian_iff_symm.1 hV.1
  have he : (fun i j => (cov i j).getD 0 : Matrix (Fin n) (Fin n) ℝ) = V := by
    funext i j; rw [h i j]; rfl
  obtain ⟨m, hm⟩ := (C42_positive_definite (fun i => (central i).getD 0) true V hs none .none).2 hV
  have hm' := finish_eq (hm : MVN.finish _ = _)
  unfold mkFF
  rw [if_neg (by push Not; intro i j; rw [h i j]; simp), he]
  have h2 : mkMVNCov (fun i => (central i).getD 0) true V = .ok m := hm
  rw [h2, ok_bind_eq]
  have hc : m.cov = V := by rw [hm']; exact symmetrise_symm hs
  rw [hc]

/-! ## BSZ coefficients -/

theorem getFFPar_ok {c : Scheme} {K : List (String × String)} (hK : IsBSZ c K) {t : Tables} {x : List Fl × List Fl × List (List Fl)}
    (h : getFFPar c t = .ok x) :
    x = (K.map fun e => entryOfTable t.central e.1 e.2, K.map fun e => entryOfTable t.unc e.1 e.2,
      K.map fun e2 => K.map fun e1 => entryOfTable t.corr (e1.1 ++ e2.1) (e1.2 ++ e2.2)) := by
  unfold getFFPar at h
  obtain ⟨cen, h1, h⟩ := bind_eq_ok h
  obtain ⟨unc, h2, h⟩ := bind_eq_ok h
  obtain ⟨cor, h3, h⟩ := bind_eq_ok h
  injection h with h
  have e1 := mapM_look (g := fun e : String × String => entryOfTable t.central e.1 e.2) (fun a b hb => look_ok hb) h1
  have e2 := mapM_look (g := fun e : String × String => entryOfTable t.unc e.1 e.2) (fun a b hb => look_ok hb) h2
  have e3 := mapM_look (g := fun e2 : String × String => c.ffA.map fun e1 => entryOfTable t.corr (e1.1 ++ e2.1) (e1.2 ++ e2.2))
    (fun a b hb => mapM_look (fun a' b' hb' => look_ok hb') hb) h3
  subst e1 e2 e3
  rw [← h, npDelete_map, npDelete_map, npDelete_map, kept_eq hK, List.map_map]
  simp only [Function.comp_def, npDelete_map, kept_eq hK]

theorem mkFF_congr {n m : ℕ} (h : n = m) {c : Fin n → Fl} {c' : Fin m → Fl} {v : Fin n → Fin n → Fl} {v' : Fin m → Fin m → Fl}
    (hc : ∀ i, c i = c' (i.cast h)) (hv : ∀ i j, v i j = v' (i.cast h) (j.cast h)) : mkFF n c v = mkFF m c' v' := by
  subst h
  have h1 : c = c' := funext hc
  have h2 : v = v' := funext fun i => funext fun j => hv i j
  rw [h1, h2]

theorem distBSZ_eq {K : List (String × String)} (a b : String × String → Fl) (f : String × String → String × String → Fl) :
    distBSZ (K.map a, K.map b, K.map fun e2 => K.map fun e1 => f e2 e1) =
      mkFF K.length (fun i => a K[i]) fun i j => ((b K[i]).mul (b K[j])).mul (f K[i] K[j]) := by
  unfold distBSZ
  refine mkFF_congr (List.length_map ..) (fun i => ?_) (fun i j => ?_)
  · simp
  · have hi : i.1 < K.length := by simpa using i.2
    have hj : j.1 < K.length := by simpa using j.2
    simp [List.getD, List.getElem?_map, List.getElem?_eq_getElem hi, List.getElem?_eq_getElem hj]

theorem Loaded.frame {t : Tables} {process : String} {K : List (String × String)} {s s' : PS FFDist} (h : Loaded t process K s)
    (hf : ∀ e ∈ K, s'.view (coeffName process e) = s.view (coeffName process e)) : Loaded t process K s' := by
  obtain ⟨cov, h1, h2⟩ := h
  refine ⟨cov, fun i => ?_, h2⟩
  have hm : K[i] ∈ K := List.getElem_mem _
  rw [hf _ hm]
  exact h1 i

theorem Fl.mul_some {x y : Fl} {z : ℝ} (h : x.mul y = some z) : ∃ a b, x = some a ∧ y = some b ∧ z = a * b := by
  cases x <;> cases y <;> simp [Fl.mul] at h
  exact ⟨_, _, rfl, rfl, h.symm⟩

/-- **C148 (BSZ coefficients)** When the coefficients of a process have been read, they are registered parameters and components
of one multivariate normal distribution: each has the central value given for it in the file, the covariance of two of
them is the product of their uncertainties and their correlation in the file; the coefficients fixed by kinematic relations
are not among them; and no other parameter is touched. -/
theorem C148_bsz {c : Scheme} {K : List (String × String)} (hK : IsBSZ c K) (t : Tables) (process : String) (s s' : PS FFDist)
    (hg : s.Good) (h : loadBSZ c (some t) process s = (s', none)) :
    Loaded t process K s' ∧ (∀ p, p ∉ K.map (coeffName process) → s'.view p = s.view p) ∧
    (∀ p, p ∈ s'.reg ↔ p ∈ s.reg ∨ p ∈ K.map (coeffName process)) ∧ s'.Good := by
  unfold loadBSZ at h
  dsimp only at h
  cases hx : getFFPar c t >>= distBSZ with
  | error e => rw [hx] at h; cases h
  | ok d =>
    rw [hx] at h
    obtain ⟨x, hx1, hx2⟩ := bind_eq_ok hx
    rw [getFFPar_ok hK hx1, distBSZ_eq (fun e => entryOfTable t.central e.1 e.2) (fun e => entryOfTable t.unc e.1 e.2)
      (fun e2 e1 => entryOfTable t.corr (e1.1 ++ e2.1) (e1.2 ++ e2.2))] at hx2
    simp only [Prod.mk.injEq, and_true] at h
    rw [names_eq hK] at h
    obtain ⟨g1, g2, g3, g4⟩ := register_all (K.map (coeffName process)) s hg
    have hnd := coeffName_inj (process := process) hK
    obtain ⟨V, rfl, hV1, hV2⟩ := mkFF_ok hx2
    refine ⟨⟨V, fun i => ?_, fun i j => ?_, fun hs => ?_⟩, fun p hp => ?_, fun p => ?_, ?_⟩
    · have hi := view_names g1 hnd (.base (.mvn K.length (fun k => entryOfTable t.central K[k].1 K[k].2) V)) (i.cast (List.length_map ..).symm)
      rw [h] at hi
      have e1 : (K.map (coeffName process))[(i.cast (List.length_map (coeffName process)).symm : Fin _)] = coeffName process K[i] := by simp
      rw [e1] at hi
      exact hi
    · obtain ⟨z, hz⟩ := hV1 i j
      obtain ⟨a, r, ha, hr, hz'⟩ := Fl.mul_some hz
      obtain ⟨u, v, hu, hv, hz''⟩ := Fl.mul_some ha
      refine ⟨u, v, r, hu, hv, hr, fun hs => ?_⟩
      have := (hV2 (fun i j => ?_)).1 i j
      · rw [hz] at this
        injection this with this
        rw [← this, hz', hz'']
      · have h3 := hs K[j] (List.getElem_mem _) K[i] (List.getElem_mem _)
        rw [h3]
        congr 1
        cases entryOfTable t.unc K[i].1 K[i].2 <;> cases entryOfTable t.unc K[j].1 K[j].2 <;> simp [Fl.mul, mul_comm]
    · refine (hV2 (fun i j => ?_)).2
      have h3 := hs K[j] (List.getElem_mem _) K[i] (List.getElem_mem _)
      rw [h3]
      congr 1
      cases entryOfTable t.unc K[i].1 K[i].2 <;> cases entryOfTable t.unc K[j].1 K[j].2 <;> simp [Fl.mul, mul_comm]
    · rw [← h, view_other g1 _ hp, g3 p hp]
    · rw [← h]; exact g2 p
    · rw [← h]; exact good_add g1 _ _

/-- The file contains all form factors (and pairs of form factors), and all uncertainties and correlations of independent
coefficients, the covariance being `V`. (Specification.) -/
def CompleteFile (c : Scheme) (K : List (String × String)) (t : Tables) (V : Matrix (Fin K.length) (Fin K.length) ℝ) : Prop :=
  (∀ f ∈ c.ffs, (t.central f).isSome ∧ (t.unc f).isSome ∧ ∀ g ∈ c.ffs, (t.corr (f ++ g)).isSome) ∧
  ∀ i j : Fin K.length, ∃ u v r, entryOfTable t.unc K[i].1 K[i].2 = some u ∧ entryOfTable t.unc K[j].1 K[j].2 = some v ∧
    entryOfTable t.corr (K[j].1 ++ K[i].1) (K[j].2 ++ K[i].2) = some r ∧ V i j = u * v * r

theorem mapM_some {α β : Type} (l : List α) (f : α → Except PyErr β) (h : ∀ a ∈ l, ∃ b, f a = .ok b) : ∃ r, l.mapM f = .ok r := by
  induction l with
  | nil => exact ⟨[], rfl⟩
  | cons a l ih =>
    obtain ⟨b, hb⟩ := h a (by simp)
    obtain ⟨r, hr⟩ := ih fun x hx => h x (by simp [hx])
    refine ⟨b :: r, ?_⟩
    rw [List.mapM_cons, hb, ok_bind_eq, hr]; rfl

theorem look_some {t : String → Option (String → Fl)} {ff : String} (a : String) (h : (t ff).isSome) : ∃ v, look t ff a = .ok v := by
  unfold look
  obtain ⟨g, hg⟩ := Option.isSome_iff_exists.1 h
  rw [hg]; exact ⟨_, rfl⟩

theorem mem_ffA {c : Scheme} {e : String × String} (h : e ∈ c.ffA) : e.1 ∈ c.ffs := by
  unfold Scheme.ffA at h
  rw [List.mem_flatMap] at h
  obtain ⟨f, hf, h⟩ := h
  rw [List.mem_map] at h
  obtain ⟨a, _, rfl⟩ := h
  exact hf

/-- **C148 (BSZ coefficients, accepted)** A complete file whose covariance matrix is positive definite is accepted. -/
theorem C148_bsz_accepted {c : Scheme} {K : List (String × String)} (hK : IsBSZ c K) (t : Tables) (process : String) (s : PS FFDist)
    (V : Matrix (Fin K.length) (Fin K.length) ℝ) (hc : CompleteFile c K t V) (hV : V.PosDef) :
    ∃ s', loadBSZ c (some t) process s = (s', none) := by
  have h1 : ∃ x, getFFPar c t = .ok x := by
    unfold getFFPar
    obtain ⟨a, ha⟩ := mapM_some c.ffA (fun e => look t.central e.1 e.2) fun e he => look_some _ (hc.1 _ (mem_ffA he)).1
    obtain ⟨b, hb⟩ := mapM_some c.ffA (fun e => look t.unc e.1 e.2) fun e he => look_some _ (hc.1 _ (mem_ffA he)).2.1
    obtain ⟨d, hd⟩ := mapM_some c.ffA (fun e2 => c.ffA.mapM fun e1 => look t.corr (e1.1 ++ e2.1) (e1.2 ++ e2.2)) fun e he =>
      mapM_some _ _ fun e' he' => look_some _ ((hc.1 _ (mem_ffA he')).2.2 _ (mem_ffA he))
    rw [ha, ok_bind_eq, hb, ok_bind_eq, hd, ok_bind_eq]
    exact ⟨_, rfl⟩
  obtain ⟨x, hx⟩ := h1
  have h2 : distBSZ x = .ok (.mvn K.length (fun i => entryOfTable t.central K[i].1 K[i].2) V) := by
    rw [getFFPar_ok hK hx, distBSZ_eq (fun e => entryOfTable t.central e.1 e.2) (fun e => entryOfTable t.unc e.1 e.2)
      (fun e2 e1 => entryOfTable t.corr (e1.1 ++ e2.1) (e1.2 ++ e2.2))]
    refine mkFF_of _ _ V (fun i j => ?_) hV
    obtain ⟨u, v, r, hu, hv, hr, h⟩ := hc.2 i j
    rw [h, hu, hv]
    simp only [hr, Fl.mul]
  unfold loadBSZ
  dsimp only
  rw [hx, ok_bind_eq, h2]
  exact ⟨_, rfl⟩

/-- **C148 (failure)** If the file cannot be read or used, the error is raised only after the existing constraints of all
coefficients of the process that were registered have been removed; the other parameters are not touched. -/
theorem C148_bsz_failure {c : Scheme} {K : List (String × String)} (hK : IsBSZ c K) (file : Option Tables) (process : String)
    (s s' : PS FFDist) (e : PyErr) (hg : s.Good) (h : loadBSZ c file process s = (s', some e)) :
    (∀ p ∈ K.map (coeffName process), p ∈ s.reg → s'.view p = none) ∧
    (∀ p, p ∉ K.map (coeffName process) → s'.view p = s.view p) ∧ (file = none → e = .osError) := by
  unfold loadBSZ at h
  dsimp only at h
  rw [names_eq hK] at h
  obtain ⟨g1, g2, g3, g4⟩ := register_all (K.map (coeffName process)) s hg
  cases file with
  | none =>
    simp only [Prod.mk.injEq, Option.some.injEq] at h
    obtain ⟨rfl, rfl⟩ := h
    exact ⟨g4, g3, fun _ => rfl⟩
  | some t =>
    dsimp only at h
    cases hx : getFFPar c t >>= distBSZ with
    | ok d => rw [hx] at h; simp at h
    | error x =>
      rw [hx] at h
      simp only [Prod.mk.injEq, Option.some.injEq] at h
      obtain ⟨rfl, rfl⟩ := h
      exact ⟨g4, g3, fun h => by cases h⟩

end Verif.Parameters
