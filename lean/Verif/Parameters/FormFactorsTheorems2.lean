import Verif.Parameters.FormFactorsTheorems
/-!
# C148: transitions
-/
set_option linter.unusedSectionVars false
set_option linter.unusedSimpArgs false
set_option linter.unusedVariables false
namespace Verif.Parameters
open Verif.Py Verif.Constraints Verif.Probability

/-! ## Specification -/

/-- The three loaders with the coefficients they set. (Specification.) -/
inductive IsLoader : Loader → List (String × String) → Prop
  | gkvdP : IsLoader gkvdLoadP indepP
  | bsz : IsLoader bszLoad indepV
  | gkvdV : IsLoader gkvdLoadV indepV

/-- Name of the parameter for a resonance mass. (Specification.) -/
def massName (process m : String) : String := process ++ (" BCL " ++ m)

/-! ## Lemmas -/

theorem IsLoader.toBSZ {l K} (h : IsLoader l K) : IsBSZ l.scheme K := by
  cases h
  · exact .P
  · exact .V
  · exact .V

/-- Transitions and resonances of a loader. (Specification.) -/
def shape (l : Loader) : List (String × List String) := l.masses.map fun e => (e.1, e.2.keys)

/-- All names set for a transition. (Specification.) -/
def namesOf (K : List (String × String)) (e : String × List String) : List String :=
  e.2.map (massName e.1) ++ K.map (coeffName e.1)

/-- (Specification.) -/
def shapeP : List (String × List String) := [("B->K", ["m0", "m+"]), ("B->pi", ["m0", "m+"]), ("B->D", ["m0", "m+"])]
/-- (Specification.) -/
def shapeV : List (String × List String) := ["B->K*", "B->rho", "B->omega", "Bs->phi", "Bs->K*"].map fun t => (t, ["m0", "m1-", "m1+"])
/-- (Specification.) -/
def shapeG : List (String × List String) := ["B->K*", "B->rho", "B->D*"].map fun t => (t, ["m0", "m1-", "m1+"])

theorem shape_P : shape gkvdLoadP = shapeP := rfl
theorem shape_V : shape bszLoad = shapeV := rfl
theorem shape_G : shape gkvdLoadV = shapeG := rfl

theorem nodup_P : (shapeP.flatMap (namesOf indepP)).Nodup := by decide +kernel
theorem nodup_V : (shapeV.flatMap (namesOf indepV)).Nodup := by decide +kernel
theorem nodup_G : (shapeG.flatMap (namesOf indepV)).Nodup := by decide +kernel

theorem IsLoader.nodup {l K} (h : IsLoader l K) : ((shape l).flatMap (namesOf K)).Nodup := by
  cases h
  · rw [shape_P]; exact nodup_P
  · rw [shape_V]; exact nodup_V
  · rw [shape_G]; exact nodup_G

theorem IsLoader.keys_nodup {l K} (h : IsLoader l K) : l.masses.keys.Nodup := by
  have hk : l.masses.keys = (shape l).map Prod.fst := by
    unfold shape Dict.keys; rw [List.map_map]; rfl
  rw [hk]
  cases h
  · rw [shape_P]; decide +kernel
  · rw [shape_V]; decide +kernel
  · rw [shape_G]; decide +kernel

theorem mem_shape {l : Loader} {tr : String} {m : Dict String ℝ} (h : l.masses.get? tr = some m) : (tr, m.keys) ∈ shape l :=
  List.mem_map.2 ⟨(tr, m), Dict.mem_of_get? h, rfl⟩

theorem disjoint_of {l K} (hL : IsLoader l K) {a b : String × List String} (ha : a ∈ shape l) (hb : b ∈ shape l) (hne : a ≠ b)
    {p : String} (h1 : p ∈ namesOf K a) : p ∉ namesOf K b := by
  have hn := hL.nodup
  rw [List.nodup_flatMap] at hn
  intro h2
  have : Std.Symm (Function.onFun List.Disjoint (namesOf K)) := ⟨fun _ _ h => List.Disjoint.symm h⟩
  have := hn.2.forall ha hb hne
  exact this h1 h2

theorem setMass_fold (tr : String) (m : Dict String ℝ) (hm : (m.keys.map (massName tr)).Nodup) (s : PS FFDist) (hg : s.Good) :
    (m.foldl (setMass tr) s).Good ∧ (m.foldl (setMass tr) s).reg = s.reg ∧
    (∀ e ∈ m, (m.foldl (setMass tr) s).view (massName tr e.1) = some (0, .base (.point e.2))) ∧
    (∀ p, p ∉ m.keys.map (massName tr) → (m.foldl (setMass tr) s).view p = s.view p) := by
  induction m generalizing s with
  | nil => exact ⟨hg, rfl, by simp, by simp⟩
  | cons e m ih =>
    have hname : tr ++ " BCL " ++ e.1 = massName tr e.1 := by unfold massName; rw [String.append_assoc]
    have hg' : (setMass tr s e).Good := good_add hg _ _
    have hkeys : Dict.keys (e :: m) = e.1 :: Dict.keys m := rfl
    rw [hkeys, List.map_cons, List.nodup_cons] at hm
    obtain ⟨h1, h2, h3, h4⟩ := ih hm.2 (setMass tr s e) hg'
    rw [List.foldl_cons]
    refine ⟨h1, h2.trans rfl, fun e' he' => ?_, fun p hp => ?_⟩
    · rcases List.mem_cons.1 he' with rfl | h
      · rw [h4 _ hm.1]
        unfold setMass
        rw [hname, view_add hg, lastIdx_single, if_pos rfl]
      · exact h3 e' h
    · rw [hkeys, List.map_cons, List.mem_cons, not_or] at hp
      rw [h4 p hp.2]
      unfold setMass
      rw [hname, view_add hg, lastIdx_single, if_neg (fun h => hp.1 h.symm)]

/-- One transition has been loaded. (Specification.) -/
def Done (l : Loader) (K : List (String × String)) (files : String → Option Tables) (version fit tr : String) (s : PS FFDist) : Prop :=
  ∃ m t, l.masses.get? tr = some m ∧ files (l.filename version fit tr) = some t ∧
    (∀ e ∈ m, s.view (massName tr e.1) = some (0, .base (.point e.2))) ∧ Loaded t tr K s

theorem one_ok {l K} (hL : IsLoader l K) (files : String → Option Tables) (version fit tr : String) (s s' : PS FFDist) (hg : s.Good)
    (h : l.one files version fit s tr = (s', none)) :
    Done l K files version fit tr s' ∧ s'.Good ∧
    ∃ m, l.masses.get? tr = some m ∧ ∀ p, p ∉ namesOf K (tr, m.keys) → s'.view p = s.view p := by
  unfold Loader.one at h
  cases hm : l.masses.get? tr with
  | none => rw [hm] at h; cases h
  | some m =>
    rw [hm] at h
    dsimp only at h
    have hn : (namesOf K (tr, m.keys)).Nodup := by
      have := hL.nodup
      rw [List.nodup_flatMap] at this
      exact this.1 _ (mem_shape hm)
    unfold namesOf at hn
    rw [List.nodup_append] at hn
    obtain ⟨n1, n2, n3⟩ := hn
    obtain ⟨g1, g2, g3, g4⟩ := setMass_fold tr m n1 s hg
    cases hf : files (l.filename version fit tr) with
    | none =>
      rw [hf] at h
      unfold loadBSZ at h
      cases h
    | some t =>
      rw [hf] at h
      obtain ⟨b1, b2, b3, b4⟩ := C148_bsz hL.toBSZ t tr _ s' g1 h
      refine ⟨⟨m, t, hm, hf, fun e he => ?_, b1⟩, b4, m, rfl, fun p hp => ?_⟩
      · rw [b2, g3 e he]
        intro hmem
        exact n3 _ (List.mem_map.2 ⟨e.1, List.mem_map.2 ⟨e, he, rfl⟩, rfl⟩) _ hmem rfl
      · unfold namesOf at hp
        rw [List.mem_append, not_or] at hp
        rw [b2 p hp.2, g4 p hp.1]

theorem Done.frame {l K files version fit tr} {s s' : PS FFDist} (h : Done l K files version fit tr s)
    (hf : ∀ m, l.masses.get? tr = some m → ∀ p ∈ namesOf K (tr, m.keys), s'.view p = s.view p) : Done l K files version fit tr s' := by
  obtain ⟨m, t, h1, h2, h3, h4⟩ := h
  have hf' := hf m h1
  refine ⟨m, t, h1, h2, fun e he => ?_, h4.frame fun e he => ?_⟩
  · rw [hf' _ (List.mem_append_left _ (List.mem_map.2 ⟨e.1, List.mem_map.2 ⟨e, he, rfl⟩, rfl⟩))]
    exact h3 e he
  · exact hf' _ (List.mem_append_right _ (List.mem_map.2 ⟨e, he, rfl⟩))

/-- **C148 (transitions)** `bsz_load` and `gkvd_load`: after a successful call, every requested transition has its resonance
masses as constants and the coefficients of *its own* file (name made of version, transition and fit); parameters of
other processes are not touched. -/
theorem C148_transitions {l : Loader} {K : List (String × String)} (hL : IsLoader l K) (files : String → Option Tables) (version fit : String)
    (trs : List String) (hnd : trs.Nodup) (s s' : PS FFDist) (hg : s.Good) (h : l.load files version fit s trs = (s', none)) :
    (∀ tr ∈ trs, ∃ m t, l.masses.get? tr = some m ∧ files (l.filename version fit tr) = some t ∧
      (∀ e ∈ m, s'.view (massName tr e.1) = some (0, .base (.point e.2))) ∧ Loaded t tr K s') ∧
    (∀ p, (∀ tr ∈ trs, (∀ m, p ≠ massName tr m) ∧ ∀ e ∈ K, p ≠ coeffName tr e) → s'.view p = s.view p) := by
  suffices H : (∀ tr ∈ trs, Done l K files version fit tr s') ∧
      ∀ p, (∀ tr ∈ trs, ∀ m, l.masses.get? tr = some m → p ∉ namesOf K (tr, m.keys)) → s'.view p = s.view p by
    refine ⟨H.1, fun p hp => H.2 p fun tr htr m hm hmem => ?_⟩
    unfold namesOf at hmem
    rcases List.mem_append.1 hmem with h' | h'
    · obtain ⟨x, _, rfl⟩ := List.mem_map.1 h'
      exact (hp tr htr).1 x rfl
    · obtain ⟨x, hx, rfl⟩ := List.mem_map.1 h'
      exact (hp tr htr).2 x hx rfl
  induction trs generalizing s with
  | nil =>
    simp only [Loader.load, loop, Prod.mk.injEq, and_true] at h
    subst h
    exact ⟨by simp, fun _ _ => rfl⟩
  | cons tr trs ih =>
    rw [List.nodup_cons] at hnd
    unfold Loader.load at h
    simp only [loop] at h
    rcases h1 : l.one files version fit s tr with ⟨s1, _ | e⟩
    · rw [h1] at h
      obtain ⟨d1, g1, m, hm, f1⟩ := one_ok hL files version fit tr s s1 hg h1
      obtain ⟨d2, f2⟩ := ih hnd.2 s1 g1 h
      refine ⟨fun tr' h' => ?_, fun p hp => ?_⟩
      · rcases List.mem_cons.1 h' with rfl | h'
        · refine d1.frame fun m' hm' p hp => f2 p fun tr2 htr2 m2 hm2 => ?_
          refine disjoint_of hL (mem_shape hm') (mem_shape hm2) ?_ hp
          intro he
          injection he with he _
          exact hnd.1 (he ▸ htr2)
        · exact d2 tr' h'
      · rw [f2 p fun tr' h' m' hm' => hp tr' (List.mem_cons_of_mem _ h') m' hm', f1 p (hp tr (List.mem_cons_self ..) m hm)]
    · rw [h1] at h; simp at h

/-- **C148 (unknown transition)** A transition without resonance masses raises `KeyError` before anything of it is changed. -/
theorem C148_unknown_transition (l : Loader) (files : String → Option Tables) (version fit : String) (s : PS FFDist) (tr : String)
    (trs : List String) (h : l.masses.get? tr = none) : l.load files version fit s (tr :: trs) = (s, some .keyError) := by
  unfold Loader.load
  simp only [loop, Loader.one, h]

/-- **C148 (file names)** The names of the files. -/
theorem C148_filenames (version fit : String) :
    bszLoad.filename version fit "B->K*" = "data/arXiv-1503-05534" ++ version ++ "/BKstar_" ++ fit ++ ".json" ∧
    bszLoad.filename version fit "B->rho" = "data/arXiv-1503-05534" ++ version ++ "/Brho_" ++ fit ++ ".json" ∧
    bszLoad.filename version fit "B->omega" = "data/arXiv-1503-05534" ++ version ++ "/Bomega_" ++ fit ++ ".json" ∧
    bszLoad.filename version fit "Bs->phi" = "data/arXiv-1503-05534" ++ version ++ "/Bsphi_" ++ fit ++ ".json" ∧
    bszLoad.filename version fit "Bs->K*" = "data/arXiv-1503-05534" ++ version ++ "/BsKstar_" ++ fit ++ ".json" ∧
    gkvdLoadV.filename version fit "B->D*" = "data/arXiv-1811-00983" ++ version ++ "/BDstar_" ++ fit ++ ".json" ∧
    gkvdLoadP.filename version fit "B->K" = "data/arXiv-1811-00983" ++ version ++ "/BK_" ++ fit ++ ".json" ∧
    gkvdLoadP.filename version fit "B->pi" = "data/arXiv-1811-00983" ++ version ++ "/Bpi_" ++ fit ++ ".json" ∧
    gkvdLoadP.filename version fit "B->D" = "data/arXiv-1811-00983" ++ version ++ "/BD_" ++ fit ++ ".json" := by
  have t1 : transitionFilename "B->K*" = "BKstar" := by decide +kernel
  have t2 : transitionFilename "B->rho" = "Brho" := by decide +kernel
  have t3 : transitionFilename "B->omega" = "Bomega" := by decide +kernel
  have t4 : transitionFilename "Bs->phi" = "Bsphi" := by decide +kernel
  have t5 : transitionFilename "Bs->K*" = "BsKstar" := by decide +kernel
  have t6 : transitionFilename "B->D*" = "BDstar" := by decide +kernel
  have t7 : transitionFilenameP "B->K" = "BK" := by decide +kernel
  have t8 : transitionFilenameP "B->pi" = "Bpi" := by decide +kernel
  have t9 : transitionFilenameP "B->D" = "BD" := by decide +kernel
  have e1 : "data/arXiv-" ++ "1503-05534" = "data/arXiv-1503-05534" := by decide
  have e2 : "data/arXiv-" ++ "1811-00983" = "data/arXiv-1811-00983" := by decide
  have key : ∀ (a b n m : String), "/" ++ n ++ "_" = m → a ++ "/" ++ n ++ "_" ++ fit ++ ".json" = a ++ m ++ fit ++ ".json" := by
    rintro a b n m rfl
    simp only [String.append_assoc]
  simp only [Loader.filename, bszLoad, gkvdLoadV, gkvdLoadP, t1, t2, t3, t4, t5, t6, t7, t8, t9, e1, e2]
  exact ⟨key _ "" _ _ (by decide), key _ "" _ _ (by decide), key _ "" _ _ (by decide), key _ "" _ _ (by decide), key _ "" _ _ (by decide),
    key _ "" _ _ (by decide), key _ "" _ _ (by decide), key _ "" _ _ (by decide), key _ "" _ _ (by decide)⟩

/-- **C148 (resonance masses)** The masses used are those of resonances above the `B` (5.2 GeV) that are ordered as the states they
stand for: pseudoscalar below vector below axial vector for `B → V`, vector below scalar for `B → P`. -/
theorem C148_masses :
    (∀ l ∈ [bszLoad, gkvdLoadV], ∀ tr m, l.masses.get? tr = some m → ∃ a b c, m.get? "m0" = some a ∧ m.get? "m1-" = some b ∧
      m.get? "m1+" = some c ∧ 5.2 < a ∧ a < b ∧ b < c ∧ c < 7) ∧
    (∀ tr m, gkvdLoadP.masses.get? tr = some m → ∃ a b, m.get? "m+" = some a ∧ m.get? "m0" = some b ∧ 5.2 < a ∧ a < b ∧ b < 7) := by
  refine ⟨fun l hl tr m hm => ?_, fun tr m hm => ?_⟩
  · rcases List.mem_cons.1 hl with rfl | hl
    · have := Dict.mem_of_get? hm
      simp only [bszLoad, massesVbsz, List.mem_cons, Prod.mk.injEq, List.not_mem_nil, or_false] at this
      rcases this with ⟨_, rfl⟩ | ⟨_, rfl⟩ | ⟨_, rfl⟩ | ⟨_, rfl⟩ | ⟨_, rfl⟩ <;>
        exact ⟨_, _, _, rfl, rfl, rfl, by norm_num, by norm_num, by norm_num, by norm_num⟩
    · simp only [List.mem_singleton] at hl
      subst hl
      have := Dict.mem_of_get? hm
      simp only [gkvdLoadV, massesVgkvd, List.mem_cons, Prod.mk.injEq, List.not_mem_nil, or_false] at this
      rcases this with ⟨_, rfl⟩ | ⟨_, rfl⟩ | ⟨_, rfl⟩ <;>
        exact ⟨_, _, _, rfl, rfl, rfl, by norm_num, by norm_num, by norm_num, by norm_num⟩
  · have := Dict.mem_of_get? hm
    simp only [gkvdLoadP, massesPgkvd, List.mem_cons, Prod.mk.injEq, List.not_mem_nil, or_false] at this
    rcases this with ⟨_, rfl⟩ | ⟨_, rfl⟩ | ⟨_, rfl⟩ <;>
      exact ⟨_, _, rfl, rfl, by norm_num, by norm_num, by norm_num⟩

end Verif.Parameters
