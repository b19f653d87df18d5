import Verif.Parameters.FormFactorsTheorems4
/-!
# C148: `Λb → Λ`, and concrete cases
-/
set_option linter.unusedSectionVars false
set_option linter.unusedSimpArgs false
set_option linter.unusedVariables false
namespace Verif.Parameters
open Verif.Py Verif.Constraints Verif.Probability

theorem newNames_short : ∀ e ∈ newNames, ffname.get? e.1 = some e.2 := by decide +kernel

theorem translate_iff (k n : String) (h3 : 3 ≤ k.toList.length) : translate k = .ok n ↔ Renamed k n := by
  unfold translate Renamed
  constructor
  · intro h
    split at h
    · rename_i f hf
      injection h with h
      refine ⟨k.toList.take 3, (String.ofList (k.toList.drop 3), f), Dict.mem_of_get? hf, ?_, ?_, h.symm⟩
      · simp
      · simp only [List.length_take]; omega
    · cases h
  · rintro ⟨a, e, he, hk, ha, rfl⟩
    have h1 : k.toList.drop 3 = e.1.toList := by rw [hk, ← ha]; simp
    have h2 : k.toList.take 3 = a := by rw [hk, ← ha]; simp
    rw [h1, h2, String.ofList_toList, newNames_short e he]

theorem sortedKeys_spec {file : List (String × ℝ)} (hr : (file.map Prod.fst).Nodup) :
    (sortedKeys (Dict.ofPairs file)).Nodup ∧ ∀ k, k ∈ sortedKeys (Dict.ofPairs file) ↔ k ∈ file.map Prod.fst := by
  have hperm : (sortedKeys (Dict.ofPairs file)).Perm (Dict.ofPairs file).keys := List.mergeSort_perm _ _
  have e : (Dict.ofPairs file).keys = file.map Prod.fst := by rw [Dict.ofPairs_of_nodup _ hr]; rfl
  rw [e] at hperm
  exact ⟨hperm.nodup_iff.2 hr, fun k => hperm.mem_iff⟩

/-- **C148 (`Λb → Λ`)** When the two files have been read, the results are the components of one multivariate normal
distribution under their new names, with the central values of the first file; the covariance of two of them is that of the
second file and zero if it is not there.  No other parameter is touched. -/
theorem C148_lambda (fileRes : List (String × ℝ)) (fileCov : List (String × String × ℝ)) (process : String) (s s' : PS FFDist)
    (hg : s.Good) (hr : (fileRes.map Prod.fst).Nodup) (hc : (fileCov.map fun e => (e.1, e.2.1)).Nodup)
    (h3 : ∀ k ∈ fileRes.map Prod.fst, 3 ≤ k.toList.length)
    (hsym : ∀ a b x, (a, b, x) ∈ fileCov → (b, a, x) ∈ fileCov)
    (hinj : ∀ a ∈ fileRes.map Prod.fst, ∀ b ∈ fileRes.map Prod.fst, ∀ n, Renamed a n → Renamed b n → a = b)
    (h : loadLambda fileRes fileCov process s = (s', none)) :
    ∃ (K L : List String) (cen : Fin K.length → Fl) (cov : Matrix (Fin K.length) (Fin K.length) ℝ),
      K.Nodup ∧ (∀ k, k ∈ K ↔ k ∈ fileRes.map Prod.fst) ∧ List.Forall₂ (fun k n => ∃ m, Renamed k m ∧ n = sseName process m) K L ∧
      L.Nodup ∧ LoadedList L cen cov s s' ∧
      (∀ (i : Fin K.length) v, (K[i], v) ∈ fileRes → cen i = some v) ∧
      (∀ (i j : Fin K.length) x, (K[i], K[j], x) ∈ fileCov → cov i j = x) ∧
      (∀ i j : Fin K.length, (∀ x, (K[i], K[j], x) ∉ fileCov) → cov i j = 0) ∧
      (∀ p, p ∈ s'.reg ↔ p ∈ s.reg ∨ p ∈ L) ∧ s'.Good := by
  unfold loadLambda at h
  obtain ⟨k1, k2⟩ := sortedKeys_spec hr
  have hwf : (Dict.ofPairs fileRes).keys.Nodup := by rw [Dict.ofPairs_of_nodup _ hr]; exact hr
  have hc' : ((fileCov.map fun e => ((e.1, e.2.1), e.2.2)).map Prod.fst).Nodup := by
    rw [List.map_map]; exact hc
  generalize hK : sortedKeys (Dict.ofPairs fileRes) = K at h k1 k2
  generalize hC : (Dict.ofPairs (fileCov.map fun e => ((e.1, e.2.1), e.2.2)) : Dict (String × String) ℝ) = C at h
  rw [Dict.ofPairs_of_nodup _ hc'] at hC
  have hCn : C.keys.Nodup := by rw [← hC]; exact hc'
  have hget : ∀ a b x, C.get? (a, b) = some x ↔ (a, b, x) ∈ fileCov := by
    intro a b x
    constructor
    · intro hx
      have := Dict.mem_of_get? hx
      rw [← hC, List.mem_map] at this
      obtain ⟨e, he, he'⟩ := this
      obtain ⟨e1, e2, e3⟩ := e
      simp only [Prod.mk.injEq] at he'
      obtain ⟨⟨rfl, rfl⟩, rfl⟩ := he'
      exact he
    · intro hx
      apply Dict.get?_of_mem hCn
      rw [← hC]
      exact List.mem_map.2 ⟨_, hx, rfl⟩
  have hCsym : ∀ a b, C.get? (a, b) = C.get? (b, a) := by
    intro a b
    cases hab : C.get? (a, b) with
    | some x => exact ((hget b a x).2 (hsym _ _ _ ((hget a b x).1 hab))).symm
    | none =>
      cases hba : C.get? (b, a) with
      | none => rfl
      | some x => rw [(hget a b x).2 (hsym _ _ _ ((hget b a x).1 hba))] at hab; cases hab
  unfold loadLambdaFrom at h
  simp only at h
  split at h
  · cases h
  rename_i ns hns
  split at h
  · cases h
  rename_i d hd
  simp only [Prod.mk.injEq, and_true] at h
  have hF := (mapM_ok_iff _ _ _).1 hns
  obtain ⟨V, rfl, -, hV⟩ := mkFF_ok hd
  obtain ⟨hV1, hV2⟩ := hV fun i j => by rw [hCsym]
  have hname : (ns.map fun k => process ++ " SSE" ++ " " ++ k) = ns.map (sseName process) :=
    List.map_congr_left fun k _ => sse_append process k
  rw [hname] at h
  have hF' : List.Forall₂ Renamed K ns := by
    rw [List.forall₂_iff_get] at hF ⊢
    exact ⟨hF.1, fun i hi hj => (translate_iff _ _ (h3 _ ((k2 _).1 (List.getElem_mem _)))).1 (hF.2 i hi hj)⟩
  have hnd : ns.Nodup := by
    rw [List.nodup_iff_injective_get]
    rw [List.forall₂_iff_get] at hF'
    intro i j hij
    have hi : i.1 < K.length := by rw [hF'.1]; exact i.2
    have hj : j.1 < K.length := by rw [hF'.1]; exact j.2
    have a := hF'.2 i.1 hi i.2
    have b := hF'.2 j.1 hj j.2
    have hij' : ns.get ⟨i.1, i.2⟩ = ns.get ⟨j.1, j.2⟩ := hij
    rw [hij'] at a
    have := hinj _ ((k2 _).1 (List.get_mem _ _)) _ ((k2 _).1 (List.get_mem _ _)) _ a b
    have h' := (List.nodup_iff_injective_get.1 k1) this
    exact Fin.ext (by simpa using h')
  obtain ⟨r1, r2, r3, r4⟩ := register_all (ns.map (sseName process)) s hg
  have hld := loadedList_add (sse_nodup (process := process) hnd) r1 (fun i => (Dict.ofPairs fileRes).get? K[i]) V hV2
  refine ⟨K, ns.map (sseName process), fun i => (Dict.ofPairs fileRes).get? K[i], V, k1, k2, ?_, sse_nodup hnd, ?_, fun i v hv => ?_,
    fun i j x hx => ?_, fun i j hx => ?_, fun p => ?_, ?_⟩
  · rw [List.forall₂_map_right_iff]
    exact hF'.imp fun a b hab => ⟨b, hab, rfl⟩
  · rw [← h]
    exact ⟨hld.comp, hld.pos, fun p hp => by rw [hld.other p hp, r3 p hp]⟩
  · apply Dict.get?_of_mem hwf
    rw [Dict.ofPairs_of_nodup _ hr]; exact hv
  · have := hV1 i j
    rw [(hget _ _ _).2 hx] at this
    exact (Option.some.inj this).symm
  · have := hV1 i j
    have hn : C.get? (K[i], K[j]) = none := by
      cases hg' : C.get? (K[i], K[j]) with
      | none => rfl
      | some y => exact absurd ((hget _ _ _).1 hg') (hx y)
    rw [hn] at this
    exact (Option.some.inj this).symm
  · rw [← h]; exact r2 p
  · rw [← h]; exact good_add r1 _ _

/-- **C148 (`Λb → Λ`, failure)** A name whose form factor is unknown changes nothing; a covariance matrix that is not accepted
leaves the parameters of the file without constraint if they were known before. -/
theorem C148_lambda_failure (fileRes : List (String × ℝ)) (fileCov : List (String × String × ℝ)) (process : String)
    (s s' : PS FFDist) (e : PyErr) (hg : s.Good) (hr : (fileRes.map Prod.fst).Nodup)
    (h3 : ∀ k ∈ fileRes.map Prod.fst, 3 ≤ k.toList.length) (h : loadLambda fileRes fileCov process s = (s', some e)) :
    ((∃ k ∈ fileRes.map Prod.fst, ∀ n, ¬ Renamed k n) → s' = s ∧ e = .keyError) ∧
    ((∀ k ∈ fileRes.map Prod.fst, ∃ n, Renamed k n) →
      (∀ k ∈ fileRes.map Prod.fst, ∀ n, Renamed k n → sseName process n ∈ s.reg → s'.view (sseName process n) = none) ∧
      ∀ p, (∀ k ∈ fileRes.map Prod.fst, ∀ n, Renamed k n → p ≠ sseName process n) → s'.view p = s.view p) := by
  unfold loadLambda at h
  obtain ⟨k1, k2⟩ := sortedKeys_spec hr
  generalize hK : sortedKeys (Dict.ofPairs fileRes) = K at h k1 k2
  have h3' : ∀ k ∈ K, 3 ≤ k.toList.length := fun k hk => h3 k ((k2 k).1 hk)
  unfold loadLambdaFrom at h
  simp only at h
  split at h
  · rename_i e' he
    simp only [Prod.mk.injEq, Option.some.injEq] at h
    obtain ⟨rfl, rfl⟩ := h
    constructor
    · intro _
      refine ⟨rfl, ?_⟩
      clear k1 k2 hK h3'
      induction K with
      | nil => cases he
      | cons k K ih =>
        rw [List.mapM_cons] at he
        cases ht : translate k with
        | error x =>
          rw [ht] at he
          have hx : x = .keyError := by
            unfold translate at ht
            split at ht
            · cases ht
            · injection ht with ht; exact ht.symm
          have : x = e' := by injection he
          rw [← this, hx]
        | ok n =>
          rw [ht] at he
          simp only [Bind.bind, Except.bind] at he
          cases hm : List.mapM translate K with
          | error y =>
            rw [hm] at he
            have : y = e' := by injection he
            exact ih (by rw [hm, this])
          | ok y => rw [hm] at he; cases he
    · intro hall
      obtain ⟨r, hr'⟩ := mapM_some K translate fun k hk => by
        obtain ⟨n, hn⟩ := hall k ((k2 k).1 hk)
        exact ⟨n, (translate_iff k n (h3' k hk)).2 hn⟩
      rw [hr'] at he
      cases he
  · rename_i ns hns
    split at h
    · rename_i e' he
      simp only [Prod.mk.injEq, Option.some.injEq] at h
      obtain ⟨hs', -⟩ := h
      have hF := (mapM_ok_iff _ _ _).1 hns
      rw [List.forall₂_iff_get] at hF
      have hname : (ns.map fun k => process ++ " SSE" ++ " " ++ k) = ns.map (sseName process) :=
        List.map_congr_left fun k _ => sse_append process k
      rw [hname] at hs'
      obtain ⟨r1, r2, r3, r4⟩ := register_all (ns.map (sseName process)) s hg
      have hto : ∀ k ∈ K, ∃ n ∈ ns, translate k = .ok n := by
        intro k hk
        obtain ⟨i, hi, rfl⟩ := List.getElem_of_mem hk
        exact ⟨_, List.get_mem ns ⟨i, hF.1 ▸ hi⟩, hF.2 i hi (hF.1 ▸ hi)⟩
      have hfrom : ∀ n ∈ ns, ∃ k ∈ K, translate k = .ok n := by
        intro n hn
        obtain ⟨i, hi, rfl⟩ := List.getElem_of_mem hn
        exact ⟨_, List.get_mem K ⟨i, hF.1.symm ▸ hi⟩, hF.2 i (hF.1.symm ▸ hi) hi⟩
      constructor
      · rintro ⟨k, hk, hno⟩
        obtain ⟨n, _, hn⟩ := hto k ((k2 k).2 hk)
        exact absurd ((translate_iff k n (h3 k hk)).1 hn) (hno n)
      · intro _
        refine ⟨fun k hk n hn hreg => ?_, fun p hp => ?_⟩
        · rw [← hs']
          obtain ⟨m, hm, hm'⟩ := hto k ((k2 k).2 hk)
          rw [(translate_iff k n (h3 k hk)).2 hn] at hm'
          injection hm' with hm'
          subst hm'
          exact r4 _ (List.mem_map.2 ⟨_, hm, rfl⟩) hreg
        · rw [← hs']
          apply r3
          rw [List.mem_map]
          rintro ⟨n, hn, rfl⟩
          obtain ⟨k, hk, hkn⟩ := hfrom n hn
          exact hp k ((k2 k).1 hk) n ((translate_iff k n (h3' k hk)).1 hkn) rfl
    · simp at h

/-! ## Concrete cases -/

/-- A file with unit covariance matrix. (Specification.) -/
noncomputable def unitTables : Tables where
  central := fun _ => some fun _ => some (1 / 2)
  unc := fun _ => some fun _ => some 1
  corr := fun ff => some fun a => some (if (ff, a) ∈ indepP.map (fun e => (e.1 ++ e.1, e.2 ++ e.2)) then 1 else 0)

theorem unitTables_complete : CompleteFile schemeP indepP unitTables (1 : Matrix (Fin indepP.length) (Fin indepP.length) ℝ) := by
  refine ⟨fun f _ => ⟨rfl, rfl, fun _ _ => rfl⟩, fun i j => ?_⟩
  refine ⟨1, 1, if i = j then 1 else 0, rfl, rfl, ?_, ?_⟩
  · have key : ∀ i j : Fin indepP.length, decide ((indepP[j].1 ++ indepP[i].1, indepP[j].2 ++ indepP[i].2) ∈
        indepP.map (fun e => (e.1 ++ e.1, e.2 ++ e.2))) = decide (i = j) := by decide +kernel
    have hk := key i j
    show some (if (indepP[j].1 ++ indepP[i].1, indepP[j].2 ++ indepP[i].2) ∈ indepP.map (fun e => (e.1 ++ e.1, e.2 ++ e.2)) then (1 : ℝ) else 0) = _
    by_cases hij : i = j
    · rw [if_pos hij, if_pos (by simpa [hij] using hk)]
    · rw [if_neg hij, if_neg (by rw [decide_eq_decide] at hk; exact fun h => hij (hk.1 h))]
  · rw [Matrix.one_apply]; split_ifs <;> simp

/-- The hypotheses of `C148_bsz` can be met. -/
theorem C148_nonvacuous : ∃ s', loadBSZ schemeP (some unitTables) "B->K" ⟨[], ⟨[], []⟩, []⟩ = (s', none) :=
  C148_bsz_accepted .P unitTables _ _ 1 unitTables_complete Matrix.PosDef.one

example : translate "a0_fplus" = .ok "a0_fV0" := by decide +kernel
example : renameLMVD (dropColons "B->pi::f_+(0)".toList) = .ok "B->pi BCL f_+(0)".toList := by decide +kernel
example : renameEOS "B->K::alpha^f+_0@BSZ2015".toList = "B->K BSZ a0_f+".toList := by decide +kernel

end Verif.Parameters
