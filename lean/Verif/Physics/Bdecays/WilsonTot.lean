import Verif.Physics.Common
import Verif.Physics.Eft
import Mathlib.Analysis.SpecialFunctions.Pow.Real
import Mathlib.Tactic.NormNum
import Mathlib.Tactic.IntervalCases
/-!
# Total ΔF=1 Wilson coefficients (`flavio/physics/bdecays/wilsoncoefficients.py`)

The table of Standard Model values (`wcsm_nf5`, an interpolation of a data file) is a parameter: a function of the scale
that gives 15 numbers, or raises `ValueError` outside its range.  `get_wc` is a parameter too (C64 is about it): the
result is the dictionary of new physics contributions or an exception.  The interpolation returns a new array on each
call, so the in-place changes of the code do not outlive the call.
-/
set_option linter.unusedVariables false
set_option linter.unusedSimpArgs false
namespace Verif.Wilson
open Verif.Py Verif.Common

/-- `fcnclabels[qq + ll]`.  /repo/flavio/physics/bdecays/wilsoncoefficients.py:59-80. -/
def labels (qq ll : String) : List String :=
  ["C1_" ++ qq, "C2_" ++ qq, "C3_" ++ qq, "C4_" ++ qq, "C5_" ++ qq, "C6_" ++ qq, "C7_" ++ qq, "C8_" ++ qq,
   "C9_" ++ qq ++ ll, "C10_" ++ qq ++ ll, "C3Q_" ++ qq, "C4Q_" ++ qq, "C5Q_" ++ qq, "C6Q_" ++ qq, "Cb_" ++ qq,
   "C1p_" ++ qq, "C2p_" ++ qq, "C3p_" ++ qq, "C4p_" ++ qq, "C5p_" ++ qq, "C6p_" ++ qq, "C7p_" ++ qq, "C8p_" ++ qq,
   "C9p_" ++ qq ++ ll, "C10p_" ++ qq ++ ll, "C3Qp_" ++ qq, "C4Qp_" ++ qq, "C5Qp_" ++ qq, "C6Qp_" ++ qq, "Cbp_" ++ qq,
   "CS_" ++ qq ++ ll, "CP_" ++ qq ++ ll, "CSp_" ++ qq ++ ll, "CPp_" ++ qq ++ ll]

/-- `_fcnc × _ll`.  /repo/flavio/physics/bdecays/wilsoncoefficients.py:57-61. -/
def sectors : List (String × String) :=
  [("bs", "ee"), ("bs", "mumu"), ("bs", "tautau"), ("bd", "ee"), ("bd", "mumu"), ("bd", "tautau"),
   ("sd", "ee"), ("sd", "mumu"), ("sd", "tautau")]

/-- `fcnclabels`.  /repo/flavio/physics/bdecays/wilsoncoefficients.py:56-80. -/
def fcncLabels : Dict String (List String) := Dict.ofPairs (sectors.map fun p => (p.1 ++ p.2, labels p.1 p.2))

/-- `np.dot`.  (Used for `/repo/flavio/physics/bdecays/wilsoncoefficients.py:94-97`.) -/
def dot (a b : List ℂ) : ℂ := (List.zipWith (· * ·) a b).sum

/-- `yi` of `wctot_dict`.  /repo/flavio/physics/bdecays/wilsoncoefficients.py:94. -/
noncomputable def yi6 : List ℂ := [0, 0, -1 / 3, -4 / 9, -20 / 3, -80 / 9]
/-- `zi` of `wctot_dict`.  /repo/flavio/physics/bdecays/wilsoncoefficients.py:95. -/
noncomputable def zi6 : List ℂ := [0, 0, 1, -1 / 6, 20, -10 / 3]
/-- `yi` of `get_C78eff`.  /repo/flavio/physics/bdecays/wilsoncoefficients.py:115. -/
noncomputable def yi4 : List ℂ := [-1 / 3, -4 / 9, -20 / 3, -80 / 9]
/-- `zi` of `get_C78eff`.  /repo/flavio/physics/bdecays/wilsoncoefficients.py:116. -/
noncomputable def zi4 : List ℂ := [1, -1 / 6, 20, -10 / 3]

/-- `wc[k]` of a `Counter` (a missing key counts 0).  /repo/flavio/physics/bdecays/wilsoncoefficients.py:118-123. -/
def val (d : Dict String ℂ) (k : String) : ℂ := (Dict.get? d k).getD 0

/-- `sector[:2]`.  /repo/flavio/physics/bdecays/wilsoncoefficients.py:104,109. -/
def pre2 (s : String) : String := String.ofList (s.toList.take 2)

/-- `get_C78eff` of a `Counter`.  /repo/flavio/physics/bdecays/wilsoncoefficients.py:112-124. -/
noncomputable def getC78eff (wc : Dict String ℂ) (qq : String) : Dict String ℂ :=
  let c := ["C3_" ++ qq, "C4_" ++ qq, "C5_" ++ qq, "C6_" ++ qq].map (val wc)
  let cp := ["C3p_" ++ qq, "C4p_" ++ qq, "C5p_" ++ qq, "C6p_" ++ qq].map (val wc)
  [("C7eff_" ++ qq, val wc ("C7_" ++ qq) + dot yi4 c), ("C8eff_" ++ qq, val wc ("C8_" ++ qq) + dot zi4 c),
   ("C7effp_" ++ qq, val wc ("C7p_" ++ qq) + dot yi4 cp), ("C8effp_" ++ qq, val wc ("C8p_" ++ qq) + dot zi4 cp)]

/-- The array `wc_sm` after its in-place changes.  /repo/flavio/physics/bdecays/wilsoncoefficients.py:90-97. -/
noncomputable def smArray (t : List ℂ) (mt : ℝ) : List ℂ :=
  let t := t.set 9 (t.getD 9 0 * (((mt / 173.1) ^ (1.53 : ℝ) : ℝ) : ℂ))
  let t := t.set 6 (t.getD 6 0 - dot yi6 (t.take 6))
  t.set 7 (t.getD 7 0 - dot zi6 (t.take 6))

/-- `wctot_dict`.  `np` is the result of `get_wc`, `tab` the interpolated table.
/repo/flavio/physics/bdecays/wilsoncoefficients.py:81-110. -/
noncomputable def wctotDict (np : Except PyErr (Dict String ℂ)) (tab : ℝ → Except PyErr (List ℂ)) (sector : String)
    (scale : ℝ) (mt ms mb : ℝ) (nfOut : Int) : Except PyErr (Dict String ℂ) :=
  np >>= fun npd =>
    if nfOut = 5 then
      tab scale >>= fun t =>
      Dict.getItem fcncLabels sector >>= fun labs =>
        let sm := Dict.ofPairs (labs.zip (smArray t mt))
        let sm := if pre2 sector = "bs" then
            Dict.set (Dict.set sm "C7p_bs" (((ms / mb : ℝ) : ℂ) * val sm "C7_bs")) "C8p_bs" (((ms / mb : ℝ) : ℂ) * val sm "C8_bs")
          else sm
        addDict [npd, sm] >>= fun tot =>
          .ok (counterUpdate tot (getC78eff tot (pre2 sector)))
    else .error .notImplementedError

/-- `get_CVLSM` (for B and D physics it needs a positive scale and Z mass).
/repo/flavio/physics/bdecays/wilsoncoefficients.py:197-206. -/
noncomputable def cvlSM (alphaE mZ scale : ℝ) (nf : Int) : ℝ :=
  if 4 ≤ nf then 1 + alphaE / Real.pi * Real.log (mZ / scale) else Real.sqrt 1.0232

theorem map_fst_zip_take (l : List String) (t : List ℂ) : (l.zip t).map Prod.fst = l.take t.length := by
  induction l generalizing t with
  | nil => simp
  | cons a l ih => cases t with
    | nil => simp
    | cons b t => simp [ih]

theorem get?_zip (l : List String) (t : List ℂ) (hl : l.Nodup) (i : ℕ) (h1 : i < l.length) (h2 : i < t.length) :
    Dict.get? (Dict.ofPairs (l.zip t)) l[i] = some t[i] := by
  have hn : ((l.zip t).map Prod.fst).Nodup := by
    rw [map_fst_zip_take]; exact hl.sublist (List.take_sublist _ _)
  rw [Dict.ofPairs_of_nodup _ hn]
  refine Dict.get?_of_mem hn ?_
  rw [List.mem_iff_getElem]
  exact ⟨i, by simp [h1, h2], by simp⟩

theorem get?_zip_none (l : List String) (t : List ℂ) (k : String) (h : k ∉ l.take t.length) :
    Dict.get? (Dict.ofPairs (l.zip t)) k = none := by
  rw [Dict.get?_ofPairs, Dict.get?_eq_none_iff]
  intro hk
  apply h
  rw [← map_fst_zip_take]
  simpa [Dict.keys] using hk

/-- The names of the effective coefficients (specification). -/
def effNames (qq : String) : List String := ["C7eff_" ++ qq, "C8eff_" ++ qq, "C7effp_" ++ qq, "C8effp_" ++ qq]

theorem sector_facts : ∀ p ∈ sectors, (labels p.1 p.2).Nodup ∧ pre2 (p.1 ++ p.2) = p.1 ∧
    Dict.getItem fcncLabels (p.1 ++ p.2) = .ok (labels p.1 p.2) ∧ (effNames p.1).Nodup ∧
    (∀ k ∈ effNames p.1, k ∉ labels p.1 p.2) := by
  decide +kernel

/-- The mixing of the four-quark operators `c = (C3, C4, C5, C6)` into the photon dipole (specification). -/
noncomputable def mix7 (c3 c4 c5 c6 : ℂ) : ℂ := -(1 / 3) * c3 - 4 / 9 * c4 - 20 / 3 * c5 - 80 / 9 * c6
/-- The mixing of the four-quark operators into the gluon dipole (specification). -/
noncomputable def mix8 (c3 c4 c5 c6 : ℂ) : ℂ := c3 - 1 / 6 * c4 + 20 * c5 - 10 / 3 * c6

/-- The Standard Model dictionary of the code. (Specification.) -/
noncomputable def smDict (qq ll : String) (t : List ℂ) (mt ms mb : ℝ) : Dict String ℂ :=
  let sm := Dict.ofPairs ((labels qq ll).zip (smArray t mt))
  if qq = "bs" then
    Dict.set (Dict.set sm "C7p_bs" (((ms / mb : ℝ) : ℂ) * val sm "C7_bs")) "C8p_bs" (((ms / mb : ℝ) : ℂ) * val sm "C8_bs")
  else sm

theorem smArray_eq (t : List ℂ) (mt : ℝ) (ht : t.length = 15) :
    (smArray t mt).length = 15 ∧
    (∀ i, i < 15 → i ≠ 6 → i ≠ 7 → i ≠ 9 → (smArray t mt)[i]? = t[i]?) ∧
    (smArray t mt)[9]? = some (t.getD 9 0 * (((mt / 173.1) ^ (1.53 : ℝ) : ℝ) : ℂ)) ∧
    (smArray t mt)[6]? = some (t.getD 6 0 - mix7 (t.getD 2 0) (t.getD 3 0) (t.getD 4 0) (t.getD 5 0)) ∧
    (smArray t mt)[7]? = some (t.getD 7 0 - mix8 (t.getD 2 0) (t.getD 3 0) (t.getD 4 0) (t.getD 5 0)) := by
  match t, ht with
  | [t0, t1, t2, t3, t4, t5, t6, t7, t8, t9, t10, t11, t12, t13, t14], _ =>
    refine ⟨by simp [smArray], ?_, ?_, ?_, ?_⟩
    · intro i hi h6 h7 h9
      interval_cases i <;> first | rfl | simp_all [smArray]
    · rfl
    · simp only [smArray, List.set, List.getD, dot, yi6, mix7]
      simp
      ring
    · simp only [smArray, List.set, List.getD, dot, zi6, mix8]
      simp
      ring

theorem val_smDict (p : String × String) (hp : p ∈ sectors) (t : List ℂ) (mt ms mb : ℝ) (ht : t.length = 15) :
    let L := labels p.1 p.2
    let v := val (smDict p.1 p.2 t mt ms mb)
    let e : ℂ := if p.1 = "bs" then ((ms / mb : ℝ) : ℂ) else 0
    (∀ i, (h : i < 15) → i ≠ 6 → i ≠ 7 → i ≠ 9 → v (L[i]'(by simp [L, labels]; omega)) = t.getD i 0) ∧
    v ("C10_" ++ p.1 ++ p.2) = t.getD 9 0 * (((mt / 173.1) ^ (1.53 : ℝ) : ℝ) : ℂ) ∧
    v ("C7_" ++ p.1) = t.getD 6 0 - mix7 (t.getD 2 0) (t.getD 3 0) (t.getD 4 0) (t.getD 5 0) ∧
    v ("C8_" ++ p.1) = t.getD 7 0 - mix8 (t.getD 2 0) (t.getD 3 0) (t.getD 4 0) (t.getD 5 0) ∧
    v ("C7p_" ++ p.1) = e * (t.getD 6 0 - mix7 (t.getD 2 0) (t.getD 3 0) (t.getD 4 0) (t.getD 5 0)) ∧
    v ("C8p_" ++ p.1) = e * (t.getD 7 0 - mix8 (t.getD 2 0) (t.getD 3 0) (t.getD 4 0) (t.getD 5 0)) ∧
    (∀ k, k ∉ L.take 15 → k ≠ "C7p_" ++ p.1 → k ≠ "C8p_" ++ p.1 → v k = 0) := by
  intro L v e
  obtain ⟨hn, -, -, -, -⟩ := sector_facts p hp
  obtain ⟨a0, a1, a2, a3, a4⟩ := smArray_eq t mt ht
  have hL : L.length = 34 := rfl
  set A := smArray t mt with hA
  -- values of the zipped dictionary
  have z : ∀ i, (h : i < 15) → val (Dict.ofPairs (L.zip A)) (L[i]'(by omega)) = (A[i]?).getD 0 := by
    intro i h
    unfold val
    rw [get?_zip L A hn i (by omega) (by omega), List.getElem?_eq_getElem (by omega)]
  have zn : ∀ k, k ∉ L.take 15 → val (Dict.ofPairs (L.zip A)) k = 0 := by
    intro k hk
    unfold val
    rw [get?_zip_none L A k (by rw [a0]; exact hk)]; rfl
  have hne : ∀ i j (hi : i < 34) (hj : j < 34), i ≠ j → L[i]'(by omega) ≠ L[j]'(by omega) := by
    intro i j hi hj hij h
    exact hij ((List.Nodup.getElem_inj_iff hn).mp h)
  have n21 : "C7p_" ++ p.1 ∉ L.take 15 := by
    intro h
    obtain ⟨i, hi, he⟩ := List.mem_iff_getElem.mp h
    rw [List.length_take] at hi
    rw [List.getElem_take] at he
    exact hne i 21 (by omega) (by omega) (by omega) he
  have n22 : "C8p_" ++ p.1 ∉ L.take 15 := by
    intro h
    obtain ⟨i, hi, he⟩ := List.mem_iff_getElem.mp h
    rw [List.length_take] at hi
    rw [List.getElem_take] at he
    exact hne i 22 (by omega) (by omega) (by omega) he
  have v9 : val (Dict.ofPairs (L.zip A)) ("C10_" ++ p.1 ++ p.2) = t.getD 9 0 * (((mt / 173.1) ^ (1.53 : ℝ) : ℝ) : ℂ) :=
    (z 9 (by omega)).trans (by rw [a2]; rfl)
  have v6 : val (Dict.ofPairs (L.zip A)) ("C7_" ++ p.1) = t.getD 6 0 - mix7 (t.getD 2 0) (t.getD 3 0) (t.getD 4 0) (t.getD 5 0) :=
    (z 6 (by omega)).trans (by rw [a3]; rfl)
  have v7 : val (Dict.ofPairs (L.zip A)) ("C8_" ++ p.1) = t.getD 7 0 - mix8 (t.getD 2 0) (t.getD 3 0) (t.getD 4 0) (t.getD 5 0) :=
    (z 7 (by omega)).trans (by rw [a4]; rfl)
  -- the final dictionary in terms of the zipped one
  have vk : ∀ k, v k = if k = "C8p_" ++ p.1 then e * val (Dict.ofPairs (L.zip A)) ("C8_" ++ p.1)
      else if k = "C7p_" ++ p.1 then e * val (Dict.ofPairs (L.zip A)) ("C7_" ++ p.1)
      else val (Dict.ofPairs (L.zip A)) k := by
    intro k
    by_cases hb : p.1 = "bs"
    · have : v k = val (Dict.set (Dict.set (Dict.ofPairs (L.zip A)) "C7p_bs" (((ms / mb : ℝ) : ℂ) * val (Dict.ofPairs (L.zip A)) "C7_bs"))
          "C8p_bs" (((ms / mb : ℝ) : ℂ) * val (Dict.ofPairs (L.zip A)) "C8_bs")) k := by
        show val (smDict _ _ _ _ _ _) k = _
        unfold smDict
        simp only [hb, if_true]
        rw [hA]; simp only [L, hb]
      rw [this]
      have h7 : "C7p_" ++ p.1 = "C7p_bs" := by rw [hb]; decide +kernel
      have h8 : "C8p_" ++ p.1 = "C8p_bs" := by rw [hb]; decide +kernel
      have h7' : "C7_" ++ p.1 = "C7_bs" := by rw [hb]; decide +kernel
      have h8' : "C8_" ++ p.1 = "C8_bs" := by rw [hb]; decide +kernel
      rw [h7, h8, h7', h8']
      simp only [e, hb, if_true]
      conv_lhs => unfold val
      rw [Dict.get?_set, Dict.get?_set]
      by_cases c8 : k = "C8p_bs"
      · rw [if_pos c8.symm, if_pos c8]; rfl
      · rw [if_neg (Ne.symm c8), if_neg c8]
        by_cases c7 : k = "C7p_bs"
        · rw [if_pos c7.symm, if_pos c7]; rfl
        · rw [if_neg (Ne.symm c7), if_neg c7]; rfl
    · have : v k = val (Dict.ofPairs (L.zip A)) k := by
        show val (smDict _ _ _ _ _ _) k = _
        unfold smDict
        simp only [hb, if_false]
        rfl
      rw [this]
      simp only [e, hb, if_false, zero_mul]
      split_ifs with c8 c7
      · rw [c8]; exact zn _ n22
      · rw [c7]; exact zn _ n21
      · rfl
  have low : ∀ i, (h : i < 15) → v (L[i]'(by omega)) = (A[i]?).getD 0 := by
    intro i h
    have c8 : L[i]'(by omega) ≠ "C8p_" ++ p.1 := hne i 22 (by omega) (by omega) (by omega)
    have c7 : L[i]'(by omega) ≠ "C7p_" ++ p.1 := hne i 21 (by omega) (by omega) (by omega)
    rw [vk, if_neg c8, if_neg c7, z i h]
  refine ⟨fun i h h6 h7 h9 => ?_, ?_, ?_, ?_, ?_, ?_, fun k h1 h2 h3 => ?_⟩
  · rw [low i h, a1 i h h6 h7 h9]; rfl
  · exact (low 9 (by omega)).trans (by rw [a2]; rfl)
  · exact (low 6 (by omega)).trans (by rw [a3]; rfl)
  · exact (low 7 (by omega)).trans (by rw [a4]; rfl)
  · have c8 : "C7p_" ++ p.1 ≠ "C8p_" ++ p.1 := hne 21 22 (by omega) (by omega) (by omega)
    rw [vk, if_neg c8, if_pos rfl, v6]
  · rw [vk, if_pos rfl, v7]
  · rw [vk, if_neg h3, if_neg h2, zn k h1]

theorem wf_sm (qq ll : String) (t : List ℂ) (mt ms mb : ℝ) : Dict.WF (smDict qq ll t mt ms mb) := by
  unfold smDict
  simp only
  split_ifs
  · exact Dict.wf_set (Dict.wf_set (Dict.wf_ofPairs _) _ _) _ _
  · exact Dict.wf_ofPairs _

/-- What the function returns, with the exceptions out of the way. -/
theorem wctotDict_ok (p : String × String) (hp : p ∈ sectors) (npd : Dict String ℂ) (tab : ℝ → Except PyErr (List ℂ))
    (scale mt ms mb : ℝ) (t : List ℂ) (ht : tab scale = .ok t) :
    wctotDict (.ok npd) tab (p.1 ++ p.2) scale mt ms mb 5
      = .ok (counterUpdate (counterUpdate npd (smDict p.1 p.2 t mt ms mb))
          (getC78eff (counterUpdate npd (smDict p.1 p.2 t mt ms mb)) p.1)) := by
  obtain ⟨-, hs, hg, -, -⟩ := sector_facts p hp
  have e : wctotDict (.ok npd) tab (p.1 ++ p.2) scale mt ms mb 5 =
      (tab scale >>= fun t => Dict.getItem fcncLabels (p.1 ++ p.2) >>= fun labs =>
        let sm := Dict.ofPairs (labs.zip (smArray t mt))
        let sm := if pre2 (p.1 ++ p.2) = "bs" then
            Dict.set (Dict.set sm "C7p_bs" (((ms / mb : ℝ) : ℂ) * val sm "C7_bs")) "C8p_bs" (((ms / mb : ℝ) : ℂ) * val sm "C8_bs")
          else sm
        addDict [npd, sm] >>= fun tot =>
          .ok (counterUpdate tot (getC78eff tot (pre2 (p.1 ++ p.2))))) := by
    unfold wctotDict
    simp only [if_true]
    rfl
  rw [e, ht, hg, hs]
  rfl

/-- **C93 (totals).** For each of the nine sectors, every table and every dictionary of new physics contributions (which
never contains the four effective coefficients): each coefficient is the new physics contribution plus the tabulated
Standard Model value, `C10` being rescaled with the top mass; the effective dipole coefficients are the *tabulated
effective values* plus the new physics contribution to the dipole and, with the mixing weights, to `C3..C6`;
right-handed dipoles get `m_s/m_b` times the non-effective Standard Model dipoles for b → s and nothing otherwise; all
other coefficients are the new physics contribution. -/
theorem C93_total (p : String × String) (hp : p ∈ sectors) (npd : Dict String ℂ) (tab : ℝ → Except PyErr (List ℂ))
    (scale mt ms mb : ℝ) (t : List ℂ) (ht : tab scale = .ok t) (hl : t.length = 15)
    (hnp : ∀ k ∈ effNames p.1, k ∉ Dict.keys npd) :
    let q := p.1
    let L := labels p.1 p.2
    let e : ℂ := if p.1 = "bs" then ((ms / mb : ℝ) : ℂ) else 0
    let sm7 := t.getD 6 0 - mix7 (t.getD 2 0) (t.getD 3 0) (t.getD 4 0) (t.getD 5 0)
    let sm8 := t.getD 7 0 - mix8 (t.getD 2 0) (t.getD 3 0) (t.getD 4 0) (t.getD 5 0)
    let n := val npd
    ∃ tot, wctotDict (.ok npd) tab (p.1 ++ p.2) scale mt ms mb 5 = .ok tot ∧
    (∀ i, (h : i < 15) → i ≠ 6 → i ≠ 7 → i ≠ 9 →
      val tot (L[i]'(by simp [L, labels]; omega)) = n (L[i]'(by simp [L, labels]; omega)) + t.getD i 0) ∧
    val tot ("C10_" ++ p.1 ++ p.2) = n ("C10_" ++ p.1 ++ p.2) + t.getD 9 0 * (((mt / 173.1) ^ (1.53 : ℝ) : ℝ) : ℂ) ∧
    val tot ("C7_" ++ q) = n ("C7_" ++ q) + sm7 ∧ val tot ("C8_" ++ q) = n ("C8_" ++ q) + sm8 ∧
    val tot ("C7p_" ++ q) = n ("C7p_" ++ q) + e * sm7 ∧ val tot ("C8p_" ++ q) = n ("C8p_" ++ q) + e * sm8 ∧
    val tot ("C7eff_" ++ q) = t.getD 6 0 + n ("C7_" ++ q)
      + mix7 (n ("C3_" ++ q)) (n ("C4_" ++ q)) (n ("C5_" ++ q)) (n ("C6_" ++ q)) ∧
    val tot ("C8eff_" ++ q) = t.getD 7 0 + n ("C8_" ++ q)
      + mix8 (n ("C3_" ++ q)) (n ("C4_" ++ q)) (n ("C5_" ++ q)) (n ("C6_" ++ q)) ∧
    val tot ("C7effp_" ++ q) = e * sm7 + n ("C7p_" ++ q)
      + mix7 (n ("C3p_" ++ q)) (n ("C4p_" ++ q)) (n ("C5p_" ++ q)) (n ("C6p_" ++ q)) ∧
    val tot ("C8effp_" ++ q) = e * sm8 + n ("C8p_" ++ q)
      + mix8 (n ("C3p_" ++ q)) (n ("C4p_" ++ q)) (n ("C5p_" ++ q)) (n ("C6p_" ++ q)) ∧
    (∀ k, k ∉ L.take 15 → k ≠ "C7p_" ++ q → k ≠ "C8p_" ++ q → k ∉ effNames q → val tot k = n k) := by
  intro q L e sm7 sm8 n
  refine ⟨_, wctotDict_ok p hp npd tab scale mt ms mb t ht, ?_⟩
  set sm := smDict p.1 p.2 t mt ms mb with hsm
  set T := counterUpdate npd sm with hT
  obtain ⟨s1, s2, s3, s4, s5, s6, s7⟩ := val_smDict p hp t mt ms mb hl
  obtain ⟨hn, -, -, hen, hel⟩ := sector_facts p hp
  have vT : ∀ k, val T k = n k + val sm k := fun k => (counterUpdate_spec sm npd (wf_sm ..) k).1
  have weff : Dict.WF (getC78eff T p.1) := hen
  have vtot : ∀ k, val (counterUpdate T (getC78eff T p.1)) k = val T k + val (getC78eff T p.1) k :=
    fun k => (counterUpdate_spec _ T weff k).1
  have off : ∀ k, k ∉ effNames p.1 → val (counterUpdate T (getC78eff T p.1)) k = n k + val sm k := by
    intro k hk
    rw [vtot, vT]
    have : Dict.get? (getC78eff T p.1) k = none := (Dict.get?_eq_none_iff _ _).2 hk
    unfold val at *
    rw [this]; simp
  have lab : ∀ i, (h : i < 34) → L[i]'h ∉ effNames p.1 := by
    intro i h hk
    exact hel _ hk (List.getElem_mem h)
  have hne : ∀ i j (hi : i < 34) (hj : j < 34), i ≠ j → L[i]'hi ≠ L[j]'hj := by
    intro i j hi hj hij h
    exact hij ((List.Nodup.getElem_inj_iff hn).mp h)
  have effz : ∀ k ∈ effNames p.1, val T k = 0 := by
    intro k hk
    have h1 : n k = 0 := by
      show val npd k = 0
      unfold val
      rw [(Dict.get?_eq_none_iff _ _).2 (hnp k hk)]; rfl
    rw [vT, h1, zero_add]
    refine s7 k (fun h => hel k hk (List.take_subset _ _ h)) ?_ ?_
    · rintro rfl; exact lab 21 (by norm_num) hk
    · rintro rfl; exact lab 22 (by norm_num) hk
  have g : ∀ (c : ℂ) k, Dict.get? (getC78eff T p.1) k = some c → k ∈ effNames p.1 →
      val (counterUpdate T (getC78eff T p.1)) k = c := by
    intro c k h hk
    rw [vtot, effz k hk, zero_add]
    unfold val
    rw [h]; rfl
  have p1 : ∀ i, (h : i < 15) → i ≠ 6 → i ≠ 7 → i ≠ 9 → val T (L[i]'(by simp [L, labels]; omega))
      = n (L[i]'(by simp [L, labels]; omega)) + t.getD i 0 := by
    intro i h h6 h7 h9
    rw [vT, s1 i h h6 h7 h9]
  have pz : ∀ i, (h : i < 34) → 15 ≤ i → i ≠ 21 → i ≠ 22 → val T (L[i]'h) = n (L[i]'h) := by
    intro i h h15 h21 h22
    rw [vT, s7, add_zero]
    · intro hm
      obtain ⟨j, hj, he⟩ := List.mem_iff_getElem.mp hm
      rw [List.length_take] at hj
      rw [List.getElem_take] at he
      exact hne j i (by omega) (by omega) (by omega) he
    · exact hne i 21 h (by norm_num) h21
    · exact hne i 22 h (by norm_num) h22
  have c3 : val T ("C3_" ++ q) = n ("C3_" ++ q) + t.getD 2 0 := p1 2 (by omega) (by omega) (by omega) (by omega)
  have c4 : val T ("C4_" ++ q) = n ("C4_" ++ q) + t.getD 3 0 := p1 3 (by omega) (by omega) (by omega) (by omega)
  have c5 : val T ("C5_" ++ q) = n ("C5_" ++ q) + t.getD 4 0 := p1 4 (by omega) (by omega) (by omega) (by omega)
  have c6 : val T ("C6_" ++ q) = n ("C6_" ++ q) + t.getD 5 0 := p1 5 (by omega) (by omega) (by omega) (by omega)
  have d3 : val T ("C3p_" ++ q) = n ("C3p_" ++ q) := pz 17 (by omega) (by omega) (by omega) (by omega)
  have d4 : val T ("C4p_" ++ q) = n ("C4p_" ++ q) := pz 18 (by omega) (by omega) (by omega) (by omega)
  have d5 : val T ("C5p_" ++ q) = n ("C5p_" ++ q) := pz 19 (by omega) (by omega) (by omega) (by omega)
  have d6 : val T ("C6p_" ++ q) = n ("C6p_" ++ q) := pz 20 (by omega) (by omega) (by omega) (by omega)
  have b7 : val T ("C7_" ++ q) = n ("C7_" ++ q) + sm7 := (vT _).trans (congrArg (n _ + ·) s3)
  have b8 : val T ("C8_" ++ q) = n ("C8_" ++ q) + sm8 := (vT _).trans (congrArg (n _ + ·) s4)
  have b7p : val T ("C7p_" ++ q) = n ("C7p_" ++ q) + e * sm7 := (vT _).trans (congrArg (n _ + ·) s5)
  have b8p : val T ("C8p_" ++ q) = n ("C8p_" ++ q) + e * sm8 := (vT _).trans (congrArg (n _ + ·) s6)
  refine ⟨fun i h h6 h7 h9 => ?_, ?_, ?_, ?_, ?_, ?_, ?_, ?_, ?_, ?_, fun k h1 h2 h3 h4 => ?_⟩
  · exact (off _ (lab i (by omega))).trans (congrArg (n _ + ·) (s1 i h h6 h7 h9))
  · exact (off _ (lab 9 (by omega))).trans (congrArg (n _ + ·) s2)
  · exact (off _ (lab 6 (by omega))).trans (congrArg (n _ + ·) s3)
  · exact (off _ (lab 7 (by omega))).trans (congrArg (n _ + ·) s4)
  · exact (off _ (lab 21 (by omega))).trans (congrArg (n _ + ·) s5)
  · exact (off _ (lab 22 (by omega))).trans (congrArg (n _ + ·) s6)
  · rw [g (val T ("C7_" ++ q) + dot yi4 (["C3_" ++ q, "C4_" ++ q, "C5_" ++ q, "C6_" ++ q].map (val T))) _
      (Dict.get?_of_mem weff (by simp [getC78eff, q])) (by simp [effNames, q])]
    simp only [List.map, dot, yi4, List.zipWith, List.sum_cons, List.sum_nil, c3, c4, c5, c6, b7, sm7, mix7]
    ring
  · rw [g (val T ("C8_" ++ q) + dot zi4 (["C3_" ++ q, "C4_" ++ q, "C5_" ++ q, "C6_" ++ q].map (val T))) _
      (Dict.get?_of_mem weff (by simp [getC78eff, q])) (by simp [effNames, q])]
    simp only [List.map, dot, zi4, List.zipWith, List.sum_cons, List.sum_nil, c3, c4, c5, c6, b8, sm8, mix8]
    ring
  · rw [g (val T ("C7p_" ++ q) + dot yi4 (["C3p_" ++ q, "C4p_" ++ q, "C5p_" ++ q, "C6p_" ++ q].map (val T))) _
      (Dict.get?_of_mem weff (by simp [getC78eff, q])) (by simp [effNames, q])]
    simp only [List.map, dot, yi4, List.zipWith, List.sum_cons, List.sum_nil, d3, d4, d5, d6, b7p, mix7]
    ring
  · rw [g (val T ("C8p_" ++ q) + dot zi4 (["C3p_" ++ q, "C4p_" ++ q, "C5p_" ++ q, "C6p_" ++ q].map (val T))) _
      (Dict.get?_of_mem weff (by simp [getC78eff, q])) (by simp [effNames, q])]
    simp only [List.map, dot, zi4, List.zipWith, List.sum_cons, List.sum_nil, d3, d4, d5, d6, b8p, mix8]
    ring
  · rw [off k h4, s7 k h1 h2 h3, add_zero]

/-- **C93 (Standard Model).** Without new physics the effective dipole coefficients are exactly the tabulated ones, the
semi-leptonic coefficients do not depend on the lepton flavour, and the effective right-handed dipole of b → s is
`m_s/m_b` times the *non-effective* dipole: it differs from `m_s/m_b C7eff` by the mixing of `C3..C6`. -/
theorem C93_standard_model (qq l l' : String) (hp : (qq, l) ∈ sectors) (hp' : (qq, l') ∈ sectors) (npd npd' : Dict String ℂ)
    (h0 : ∀ k, val npd k = 0) (h0' : ∀ k, val npd' k = 0) (tab : ℝ → Except PyErr (List ℂ)) (scale mt ms mb : ℝ) (t : List ℂ)
    (ht : tab scale = .ok t) (hl : t.length = 15) (hnp : ∀ k ∈ effNames qq, k ∉ Dict.keys npd)
    (hnp' : ∀ k ∈ effNames qq, k ∉ Dict.keys npd') :
    ∃ tot tot', wctotDict (.ok npd) tab (qq ++ l) scale mt ms mb 5 = .ok tot ∧
      wctotDict (.ok npd') tab (qq ++ l') scale mt ms mb 5 = .ok tot' ∧
      val tot ("C7eff_" ++ qq) = t.getD 6 0 ∧ val tot ("C8eff_" ++ qq) = t.getD 7 0 ∧
      val tot ("C9_" ++ qq ++ l) = val tot' ("C9_" ++ qq ++ l') ∧ val tot ("C10_" ++ qq ++ l) = val tot' ("C10_" ++ qq ++ l') ∧
      (qq = "bs" → val tot ("C7effp_" ++ qq) = ((ms / mb : ℝ) : ℂ) * (val tot ("C7eff_" ++ qq)
        - mix7 (val tot ("C3_" ++ qq)) (val tot ("C4_" ++ qq)) (val tot ("C5_" ++ qq)) (val tot ("C6_" ++ qq)))) ∧
      (qq ≠ "bs" → val tot ("C7effp_" ++ qq) = 0) := by
  obtain ⟨tot, e, a1, a2, a3, a4, a5, a6, a7, a8, a9, a10, a11⟩ := C93_total (qq, l) hp npd tab scale mt ms mb t ht hl hnp
  obtain ⟨tot', e', b1, b2, b3, b4, b5, b6, b7, b8, b9, b10, b11⟩ := C93_total (qq, l') hp' npd' tab scale mt ms mb t ht hl hnp'
  simp only [h0, h0', zero_add, add_zero] at *
  have c9 := a1 8 (by omega) (by omega) (by omega) (by omega)
  have c9' := b1 8 (by omega) (by omega) (by omega) (by omega)
  have c3 : val tot ("C3_" ++ qq) = t.getD 2 0 := a1 2 (by omega) (by omega) (by omega) (by omega)
  have c4 : val tot ("C4_" ++ qq) = t.getD 3 0 := a1 3 (by omega) (by omega) (by omega) (by omega)
  have c5 : val tot ("C5_" ++ qq) = t.getD 4 0 := a1 4 (by omega) (by omega) (by omega) (by omega)
  have c6 : val tot ("C6_" ++ qq) = t.getD 5 0 := a1 5 (by omega) (by omega) (by omega) (by omega)
  have z7 : mix7 0 0 0 0 = 0 := by simp [mix7]
  have z8 : mix8 0 0 0 0 = 0 := by simp [mix8]
  rw [z7, add_zero] at a7 a9
  rw [z8, add_zero] at a8
  refine ⟨tot, tot', e, e', a7, a8, c9.trans c9'.symm, a2.trans b2.symm, fun h => ?_, fun h => ?_⟩
  · rw [a9, a7, c3, c4, c5, c6, if_pos h]
  · rw [a9, if_neg h, zero_mul]

/-- **C93 (errors).** Any exception of `get_wc` is passed on; other numbers of flavours are not implemented; a scale
outside the table raises the interpolation's exception; a sector with two different leptons (or any other name) raises
`KeyError`. -/
theorem C93_errors (np : Except PyErr (Dict String ℂ)) (tab : ℝ → Except PyErr (List ℂ)) (sector : String)
    (scale mt ms mb : ℝ) (nf : Int) :
    (∀ e, np = .error e → wctotDict np tab sector scale mt ms mb nf = .error e) ∧
    (∀ d, np = .ok d → nf ≠ 5 → wctotDict np tab sector scale mt ms mb nf = .error .notImplementedError) ∧
    (∀ d e, np = .ok d → tab scale = .error e → wctotDict np tab sector scale mt ms mb 5 = .error e) ∧
    (∀ d t, np = .ok d → tab scale = .ok t → (∀ p ∈ sectors, sector ≠ p.1 ++ p.2) →
      wctotDict np tab sector scale mt ms mb 5 = .error .keyError) := by
  refine ⟨?_, ?_, ?_, ?_⟩
  · rintro e rfl; rfl
  · rintro d rfl h
    show (if nf = 5 then _ else _) = _
    rw [if_neg h]
  · rintro d e rfl h
    show (tab scale >>= _) = _
    rw [h]; rfl
  · rintro d t rfl h hs
    show (tab scale >>= _) = _
    rw [h]
    show (Dict.getItem fcncLabels sector >>= _) = _
    have : Dict.getItem fcncLabels sector = .error .keyError := by
      unfold Dict.getItem
      have : Dict.get? fcncLabels sector = none := by
        unfold fcncLabels
        rw [Dict.get?_ofPairs, Dict.get?_eq_none_iff]
        intro hk
        simp only [Dict.keys, List.mem_map, List.mem_reverse] at hk
        obtain ⟨x, ⟨p, hp, rfl⟩, hx⟩ := hk
        exact hs p hp hx.symm
      rw [this]
    rw [this]; rfl

/-- Non-vacuity: the nine sectors contain b → s μμ but not b → s e μ, and a dictionary of new physics has no effective
coefficients. -/
example : ("bs", "mumu") ∈ sectors ∧ (∀ p ∈ sectors, "bsemu" ≠ p.1 ++ p.2) ∧
    (∀ k ∈ effNames "bs", k ∉ Dict.keys [("C9_bsmumu", (-1 : ℂ))]) := by
  refine ⟨by decide, by decide +kernel, ?_⟩
  show ∀ k ∈ effNames "bs", k ∉ ["C9_bsmumu"]
  decide +kernel

end Verif.Wilson
