import Verif.Constraints.Theorems2
import Verif.Observables.Theorems
import Verif.Registry.Theorems
import Verif.Likelihood.Theorems
import Verif.Plots.Theorems
import Verif.Physics.RunningTheorems
import Verif.Physics.Eft
import Verif.IO.YamlTheorems
import Verif.Probability.NumericalTheorems
import Verif.Probability.Gamma
import Verif.Probability.Multivariate
/-!
# Theorems added after mutation testing

Each of them excludes an edit of the model that the earlier theorems did not notice.
-/
set_option linter.unusedSectionVars false
set_option linter.unusedSimpArgs false
set_option linter.unusedVariables false
open Verif.Py

namespace Verif.Constraints
variable {P R V L : Type} [DecidableEq P] [DecidableEq R]

theorem readAll_missing (par : P → Option V) (p : P) (h3 : par p = none) :
    ∀ l : List P, p ∈ l → readAll par l = .error .keyError := by
  intro l
  induction l with
  | nil => simp
  | cons q l ih =>
    intro hq
    unfold readAll
    rw [List.mapM_cons]
    cases hq' : par q with
    | none => rfl
    | some v =>
      rcases List.mem_cons.1 hq with rfl | hq
      · rw [h3] at hq'; cases hq'
      · have := ih hq
        unfold readAll at this
        simp only [this]; rfl

theorem readAll_error (par : P → Option V) (l : List P) (e : PyErr) (h : readAll par l = .error e) :
    e = .keyError := by
  induction l with
  | nil => cases h
  | cons q l ih =>
    unfold readAll at h ih
    rw [List.mapM_cons] at h
    cases hq' : par q with
    | none => rw [hq'] at h; injection h with h; exact h.symm
    | some v =>
      rw [hq'] at h
      rw [ok_bind_eq] at h
      generalize (List.mapM _ l : Except PyErr (List V)) = M at h ih
      cases M with
      | error e' => rw [error_bind_eq] at h; injection h with h; subst h; exact ih rfl
      | ok v => cases h

/-- **C04 (exception class)** If no distribution raises, a missing value makes the call raise `KeyError`. -/
theorem C04_missing_value_keyerror (f : R → PdfArg V → Except PyErr L) (hf : ∀ c a, ∃ l, f c a = .ok l)
    (h : List (Op P R)) (hp : Proper h) (par : P → Option V) (excl : List P) (p : P)
    (h1 : p ∉ excl) (h2 : Constrained h p) (h3 : par p = none) :
    getLogprobAll f (run h) par excl = .error .keyError := by
  obtain ⟨e, he⟩ := C04_missing_value_raises f h hp par excl p h1 h2 h3
  rw [he]
  congr 1
  have hstep : ∀ d x e, logprobStep f (run h) par excl d x = .error e → e = .keyError := by
    intro d x e hx
    unfold logprobStep at hx
    cases hr : readAll par (pCons (run h) excl x.1 x.2) with
    | error e' =>
      simp only [hr] at hx
      injection hx with hx
      rw [← hx]; exact readAll_error _ _ _ hr
    | ok l =>
      simp only [hr] at hx
      cases l with
      | nil => cases hx
      | cons x0 r =>
        obtain ⟨v, hv⟩ := hf x.1 (pdfArg x.2 (pCons (run h) excl x.1 x.2) (x0 :: r) x0)
        replace hx : (f x.1 (pdfArg x.2 (pCons (run h) excl x.1 x.2) (x0 :: r) x0) >>= fun l =>
          pure (d.set x.1 l)) = .error e := hx
        rw [hv] at hx
        cases hx
  unfold getLogprobAll at he
  generalize (run h).constraints = l at he
  generalize ([] : Dict R L) = d at he
  induction l generalizing d with
  | nil => cases he
  | cons x l ih =>
    rw [List.foldlM_cons] at he
    cases hs : logprobStep f (run h) par excl d x with
    | error e' =>
      rw [hs] at he
      injection he with he
      subst he
      exact hstep _ _ _ hs
    | ok d' => rw [hs] at he; exact ih d' he

end Verif.Constraints

namespace Verif.Observables
variable {A V : Type}

/-- **C17 (unknown observable)** Predicting an observable that is not registered raises `KeyError`; one
without prediction raises `AttributeError`; otherwise the call is the stored function. -/
theorem C17_predict_cases (w : World A V) (n : String) (x : A) :
    (w.obs? n = none → predict w n x = .error .keyError) ∧
    (∀ o, w.obs? n = some o → o.prediction = none → predict w n x = .error .attributeError) ∧
    (∀ o f, w.obs? n = some o → o.prediction = some f → predict w n x = f x) := by
  unfold predict
  refine ⟨fun h => by rw [h], fun o h1 h2 => by rw [h1, ]; simp only [h2], fun o f h1 h2 => by rw [h1]; simp only [h2]⟩

end Verif.Observables

namespace Verif.Registry
variable {C N I : Type} [DecidableEq C] [DecidableEq N]

/-- **C14 (class without instances)** `find` on a class that never had an instance raises `AttributeError`. -/
theorem C14_find_untouched (bases : C → List C) (h : List (Op C N I)) (hw : Wellused bases h) (c : C)
    (hc : BasesUntouched bases h c) (search : N → Bool) (ht : ¬ Touched h c) :
    find (run bases h) c (bases c) search = .error .attributeError := by
  unfold find
  rw [owner_run bases h hw c hc, run_eq_priv bases h hw c]
  rw [← privRun_isSome] at ht
  simp only [ht, if_false]
  simp

/-- **C14 (class without instances)** `del_instance` on a class that never had an instance raises
`AttributeError` and changes nothing. -/
theorem C14_del_untouched (bases : C → List C) (h : List (Op C N I)) (hw : Wellused bases h) (c : C)
    (hc : BasesUntouched bases h c) (n : N) (ht : ¬ Touched h c) :
    delInstance (run bases h) c (bases c) n = (run bases h, some .attributeError) := by
  unfold delInstance
  rw [owner_run bases h hw c hc, run_eq_priv bases h hw c]
  rw [← privRun_isSome] at ht
  simp only [ht, if_false]
  simp

end Verif.Registry

namespace Verif.Likelihood

/-- **C47 (hash collisions)** Two non-negative integers have equal hashes exactly if they differ by a
multiple of `2^61 - 1`; `-1` has the hash of `-2`; the hash of a negative integer is minus that of its absolute value,
except where this would be `-1`. -/
theorem C47_integer_hashes (m n : Int) (hm : 0 ≤ m) (hn : 0 ≤ n) :
    (pyHashInt m = pyHashInt n ↔ (2305843009213693951 : Int) ∣ m - n) ∧ pyHashInt (-1) = pyHashInt (-2) ∧
    (pyHashInt m ≠ 1 → pyHashInt (-m) = -pyHashInt m) ∧ (pyHashInt m = 1 → pyHashInt (-m) = -2) := by
  refine ⟨?_, by decide, ?_, ?_⟩
  rotate_left
  · intro h
    unfold pyHashInt at h ⊢
    simp only [if_pos hm] at h ⊢
    have e : (2 : Int) ^ 61 - 1 = 2305843009213693951 := by norm_num
    rw [e] at h ⊢
    have a := Int.emod_nonneg m (show (2305843009213693951 : Int) ≠ 0 by norm_num)
    rw [if_neg (by omega)] at h ⊢
    by_cases h0 : 0 ≤ -m
    · obtain rfl : m = 0 := by omega
      norm_num
    · rw [if_neg h0, neg_neg, if_neg (by omega)]
  · intro h
    unfold pyHashInt at h ⊢
    simp only [if_pos hm] at h
    have e : (2 : Int) ^ 61 - 1 = 2305843009213693951 := by norm_num
    rw [e] at h ⊢
    have a := Int.emod_nonneg m (show (2305843009213693951 : Int) ≠ 0 by norm_num)
    rw [if_neg (by omega)] at h
    have h0 : ¬ 0 ≤ -m := by
      intro h0
      obtain rfl : m = 0 := by omega
      norm_num at h
    simp only [if_neg h0, neg_neg, h, if_true]
  unfold pyHashInt
  simp only [if_pos hm, if_pos hn]
  have e : (2 : Int) ^ 61 - 1 = 2305843009213693951 := by norm_num
  rw [e]
  have a := Int.emod_nonneg m (show (2305843009213693951 : Int) ≠ 0 by norm_num)
  have b := Int.emod_nonneg n (show (2305843009213693951 : Int) ≠ 0 by norm_num)
  rw [if_neg (by omega), if_neg (by omega)]
  omega

end Verif.Likelihood

namespace Verif.Plots

theorem insertDesc_filter (e : BKey × ℝ) (l : List (BKey × ℝ)) (v : ℝ)
    (h : l.Pairwise fun a b => b.2 ≤ a.2) :
    (insertDesc e l).filter (fun x => decide (x.2 = v)) = (e :: l).filter fun x => decide (x.2 = v) := by
  induction l with
  | nil => rfl
  | cons f l ih =>
    unfold insertDesc
    split
    · rfl
    · rename_i hlt
      rw [List.filter_cons, ih (List.pairwise_cons.1 h).2]
      have : e.2 ≠ f.2 := by intro hc; exact hlt (by rw [hc])
      by_cases h1 : f.2 = v
      · have h2 : e.2 ≠ v := by rw [← h1]; exact this
        simp [List.filter_cons, h1, h2]
      · simp [List.filter_cons, h1]

/-- **C67 (order of the wedges)** The wedges of `error_budget_pie` are sorted by decreasing error, and
contributions with equal errors keep their order in the given dictionary. -/
theorem C67_pie_order (d : List (BKey × ℝ)) :
    (sortDesc d).Pairwise (fun a b => b.2 ≤ a.2) ∧ (sortDesc d).Perm d ∧
    ∀ v, (sortDesc d).filter (fun x => decide (x.2 = v)) = d.filter fun x => decide (x.2 = v) := by
  induction d with
  | nil => exact ⟨List.Pairwise.nil, List.Perm.refl _, fun _ => rfl⟩
  | cons e l ih =>
    obtain ⟨h1, h2, h3⟩ := ih
    refine ⟨insertDesc_sorted e _ h1, (insertDesc_perm e _).trans (List.Perm.cons e h2), fun v => ?_⟩
    show (insertDesc e (sortDesc l)).filter _ = _
    rw [insertDesc_filter e _ v h1, List.filter_cons, List.filter_cons, h3]

end Verif.Plots

namespace Verif.Running

/-- **C63 (invalid scales)** Running alpha_e from a non-zero scale to a scale of opposite sign (or to 0)
raises `ValueError` (logarithm of a non-positive number), starting from 0 raises `ZeroDivisionError`. -/
theorem C63_invalid_scales (a sIn sOut nu nd ne : ℝ) (h : sOut ≠ sIn) :
    (sIn = 0 → runAlphaE a sIn sOut nu nd ne = .error .zeroDivisionError) ∧
    (sIn ≠ 0 → sOut / sIn ≤ 0 → runAlphaE a sIn sOut nu nd ne = .error .valueError) := by
  unfold runAlphaE pyDiv pyLog
  rw [if_neg h]
  refine ⟨fun h0 => by rw [if_pos h0]; rfl, fun h0 h1 => by rw [if_neg h0, ok_bind_eq, if_pos h1]; rfl⟩

end Verif.Running

namespace Verif.Eft

/-- **C64 (sectors requested)** Outside the SM `get_wcxf` asks the wilson package for exactly the
translated sector, or for all sectors if the sector is `'all'`. -/
theorem C64_requested_sectors (env : Env) (o : WilsonCoefficients) (w) (hw : o.wc = some w) (sector : String) (scale : ℝ)
    (eft basis : String) :
    getWcxf env o "all" scale eft basis none = env.matchRun w scale eft basis .all ∧
    (sector ≠ "all" → getWcxf env o sector scale eft basis none =
      env.matchRun w scale eft basis (.one (translate sector))) := by
  constructor
  · simp [getWcxf, chooseEft, hw, mrSectors, ok_bind_eq]
  · intro h
    simp [getWcxf, chooseEft, hw, mrSectors, h, ok_bind_eq]

end Verif.Eft

namespace Verif.IO.Yaml

/-- **C59 (merge of a file without list)** Merging an existing file whose document is a number or empty
raises `TypeError`. -/
theorem C59_merge_non_list (fs : Path → Except YErr Node) (root : Option Path) (s p : Path)
    (h : Names root s p) (doc : Node) (hp : fs p = .ok doc) (hdoc : doc = .null ∨ ∃ i, doc = .num i) (n : Nat) :
    construct fs (n + 2) root (.merge [.str s]) = .error .typeError := by
  have hn : ∃ v, construct fs (n + 1) (some (dirname p)) doc = .ok v ∧ extension v = .error .typeError := by
    rcases hdoc with rfl | ⟨i, rfl⟩
    · exact ⟨_, rfl, rfl⟩
    · exact ⟨_, rfl, rfl⟩
  obtain ⟨v, hv, he⟩ := hn
  show List.mapM (construct fs (n + 1) root) [.str s] >>= _ = _
  have h1 : List.mapM (construct fs (n + 1) root) [.str s] = (.ok [.str s] : Except YErr _) := rfl
  rw [h1]
  have h2 : mergeEntry (fun p => fs p >>= fun nd => construct fs (n + 1) (some (dirname p)) nd) root (.str s) =
      .error .typeError := by
    unfold mergeEntry
    have : entryFilename root (.str s) = some p := (getFilename_iff root s p).2 h
    rw [this]
    simp only [hp]
    show (match (construct fs (n + 1) (some (dirname p)) doc >>= extension : Except YErr _) with
      | .ok ws => _ | .error (.os e) => _ | .error e => _) = _
    rw [hv]
    show (match extension v with | .ok ws => _ | .error (.os e) => _ | .error e => _) = _
    rw [he]
  show List.mapM (mergeEntry _ root) [.str s] >>= _ = _
  rw [List.mapM_cons, h2]
  rfl

end Verif.IO.Yaml

namespace Verif.Probability
variable {K : Type} [Field K] [LinearOrder K] [IsStrictOrderedRing K]

/-- **C43 (empty table)** An empty table is rejected: `ValueError` without a central value, `IndexError`
with one. -/
theorem C43_empty_table (c : K) :
    Num.mk' ([] : List K) [] none = .error .valueError ∧ Num.mk' ([] : List K) [] (some c) = .error .indexError :=
  ⟨rfl, rfl⟩

end Verif.Probability

namespace Verif.Probability

/-- **C37 (invalid limits)** `GammaUpperLimit` rejects a confidence level outside `[0, 1]` and a non-positive
limit with `ValueError`, whatever the counts. -/
theorem C37_upper_limit_rejects (S : StdGamma) (limit cl : ℝ) (t b s : Option ℝ)
    (h : cl > 1 ∨ cl < 0 ∨ limit ≤ 0) : mkGammaUpperLimit S limit cl t b s = .error .valueError := by
  unfold mkGammaUpperLimit
  by_cases h1 : cl > 1 ∨ cl < 0
  · rw [if_pos h1]
  · rw [if_neg h1, if_pos]
    rcases h with h | h | h
    · exact absurd (Or.inl h) h1
    · exact absurd (Or.inr h) h1
    · exact h

/-- **C41 (wrong number of values)** Evaluating a multivariate normal on a vector whose length is not the number
of remaining dimensions raises `ValueError`. -/
theorem C41_wrong_length {n : ℕ} (d : MVN n) (x : List ℝ) (exclude : List ℕ) :
    (∀ u, d.reduce exclude = .ok (.uni u) → x.length ≠ 1 → d.logpdfEx x exclude = .error .valueError) ∧
    (∀ m (d' : MVN m), d.reduce exclude = .ok (.multi d') → x.length ≠ m →
      d.logpdfEx x exclude = .error .valueError) := by
  constructor
  · intro u h hx
    unfold MVN.logpdfEx
    rw [h, ok_bind_eq]
    match x, hx with
    | [], _ => rfl
    | [_], hx => exact absurd rfl hx
    | _ :: _ :: _, _ => rfl
  · intro m d' h hx
    unfold MVN.logpdfEx
    rw [h, ok_bind_eq]
    simp only [dif_neg hx]

end Verif.Probability
