import Verif.Dict.Summary
/-!
# C142: calling a constructor with keyword arguments

Which arguments a distribution needs, what an unknown or missing one does, and the attributes of the object.
-/
set_option linter.unusedSectionVars false
set_option linter.unusedSimpArgs false
set_option linter.unusedVariables false
namespace Verif.DistDict
open Verif.Py Verif.Probability

/-- The names a call must and may contain, from the documentation of the classes.  (Specification.) -/
def signature : Cls → List String × List String
  | .uniform => (["central_value", "half_range"], [])
  | .discreteUniform => (["lowest_value", "highest_value"], ["central_value"])
  | .delta => (["central_value"], [])
  | .normal | .halfNormal => (["central_value", "standard_deviation"], [])
  | .logNormal => (["central_value", "factor"], [])
  | .asymmetricNormal => (["central_value", "right_deviation", "left_deviation"], [])
  | .gaussianUpperLimit => (["limit", "confidence_level"], [])
  | .gamma | .gammaPositive => (["a", "loc", "scale"], [])
  | .gammaCounting => (["scale_factor"], ["counts_total", "counts_background", "counts_signal"])
  | .gammaUpperLimit => (["limit", "confidence_level"], ["counts_total", "counts_background", "counts_signal"])
  | .numerical => (["x", "y"], ["central_value"])
  | .generalGammaPositive => (["a", "loc", "scale", "gaussian_standard_deviation"], [])
  | .generalGammaCounting => (["scale_factor", "background_std"], ["counts_total", "counts_background", "counts_signal"])
  | .generalGammaUpperLimit =>
    (["limit", "confidence_level"], ["counts_total", "counts_background", "counts_signal", "background_std", "background_variance"])
  | .kernelDensityEstimate => (["data", "kernel"], ["n_bins"])
  | .gaussianKDE => (["data"], ["bandwidth", "n_bins"])
  | .multivariateNormal => (["central_value"], ["covariance", "standard_deviation", "correlation"])
  | .multivariateNumerical => (["xi", "y"], ["central_value"])

theorem signature_known (c : Cls) (k : String) :
    k ∈ (params c).map Prod.fst ↔ k ∈ (signature c).1 ∨ k ∈ (signature c).2 := by
  cases c <;> simp [params, signature] <;> tauto

theorem signature_required (c : Cls) : ∀ k ∈ (signature c).1, (k, false) ∈ params c := by
  cases c <;> decide

theorem signature_optional (c : Cls) : ∀ k ∈ (signature c).2, ∀ p ∈ params c, p.1 = k → p.2 = true := by
  cases c <;> decide

theorem mapM_error_mem {α β : Type} (f : α → Except PyErr β) (e : PyErr) (he : ∀ a e', f a = .error e' → e' = e) :
    ∀ l : List α, (∃ a ∈ l, f a = .error e) → l.mapM f = .error e := by
  intro l
  induction l with
  | nil => rintro ⟨a, h, _⟩; cases h
  | cons b r ih =>
    rintro ⟨a, h, hf⟩
    rw [List.mapM_cons]
    cases hb : f b with
    | error e' => rw [he b e' hb]; rfl
    | ok v =>
      have : ∃ a ∈ r, f a = .error e := by
        rcases List.mem_cons.1 h with rfl | h
        · rw [hb] at hf; cases hf
        · exact ⟨a, h, hf⟩
      rw [ih this]; rfl

/-- **C142**: a call with an argument the class does not have is a `TypeError`, and so is one without a required argument. -/
theorem C142_arguments (E : Env) (c : Cls) (kw : Dict String PVal) :
    ((∃ k ∈ Dict.keys kw, k ∉ (signature c).1 ∧ k ∉ (signature c).2) → construct E c kw = .error .typeError) ∧
    ((∃ k ∈ (signature c).1, Dict.get? kw k = none) → construct E c kw = .error .typeError) ∧
    ∀ o, construct E c kw = .ok o → o.cls = c ∧ (∀ k ∈ (signature c).1, ∃ v, Dict.get? kw k = some v) ∧
      ∀ k ∈ Dict.keys kw, k ∈ (signature c).1 ∨ k ∈ (signature c).2 := by
  have h1 : (∃ k ∈ Dict.keys kw, k ∉ (signature c).1 ∧ k ∉ (signature c).2) → construct E c kw = .error .typeError := by
    rintro ⟨k, hk, hn⟩
    unfold construct
    rw [if_neg]
    intro h
    have := of_decide_eq_true (List.all_eq_true.1 h k hk)
    rw [signature_known] at this
    tauto
  have h2 : (∃ k ∈ (signature c).1, Dict.get? kw k = none) → construct E c kw = .error .typeError := by
    rintro ⟨k, hk, hn⟩
    unfold construct
    split
    · rw [mapM_error_mem (bindArg kw) .typeError ?_ _ ⟨_, signature_required c k hk, ?_⟩]
      · rfl
      · intro a e' h
        unfold bindArg at h
        split at h
        · cases h
        · split at h
          · cases h
          · cases h; rfl
      · simp only [bindArg, hn]; rfl
    · rfl
  refine ⟨h1, h2, fun o ho => ⟨(construct_args ho).2, fun k hk => ?_, fun k hk => ?_⟩⟩
  · cases hv : Dict.get? kw k with
    | some v => exact ⟨v, rfl⟩
    | none => rw [h2 ⟨k, hk, hv⟩] at ho; cases ho
  · by_contra hn
    push Not at hn
    rw [h1 ⟨k, hk, hn⟩] at ho; cases ho

/-- **C142**: an optional argument that is left out is the same as `None`. -/
theorem C142_default_is_none (E : Env) (c : Cls) (kw : Dict String PVal) (k : String) (hk : k ∈ (signature c).2)
    (hn : Dict.get? kw k = none) : construct E c (Dict.set kw k .none) = construct E c kw := by
  unfold construct
  have hkeys : ((Dict.keys (Dict.set kw k PVal.none)).all fun k => decide (k ∈ (params c).map Prod.fst)) =
      ((Dict.keys kw).all fun k => decide (k ∈ (params c).map Prod.fst)) := by
    have hkp : k ∈ (params c).map Prod.fst := (signature_known c k).2 (Or.inr hk)
    rw [Bool.eq_iff_iff, List.all_eq_true, List.all_eq_true]
    have hm := fun j => Dict.mem_keys_set kw k j PVal.none
    constructor
    · exact fun h j hj => h j ((hm j).2 (Or.inr hj))
    · intro h j hj
      rcases (hm j).1 hj with rfl | hj
      · exact decide_eq_true hkp
      · exact h j hj
  have hargs : (params c).mapM (bindArg (Dict.set kw k PVal.none)) = (params c).mapM (bindArg kw) := by
    have : ∀ p ∈ params c, bindArg (Dict.set kw k PVal.none) p = bindArg kw p := by
      intro p hp
      unfold bindArg
      rw [Dict.get?_set]
      by_cases e : p.1 = k
      · rw [if_pos e.symm, e, hn, signature_optional c k hk p hp e]; rfl
      · rw [if_neg (Ne.symm e)]
    generalize params c = l at this
    induction l with
    | nil => rfl
    | cons a r ih =>
      rw [List.mapM_cons, List.mapM_cons, this a (by simp), ih fun p hp => this p (by simp [hp])]
  rw [hkeys, hargs]

/-! ## The attributes -/

/-- The number an argument stands for.  (Specification.) -/
def IsNum (v : PVal) (r : ℝ) : Prop := v = .float r ∨ ∃ n : ℤ, v = .int n ∧ r = n

theorem isNum_iff (v : PVal) (r : ℝ) : num v = .ok r ↔ IsNum v r := by
  cases v <;> simp [num, IsNum, eq_comm]

/-- The end points stored as the support of an object.  (Specification.) -/
def SupportIs (o : Obj) (lo hi : ℝ) : Prop := Dict.get? o.attrs "support" = some (.seq true [.float lo, .float hi])

/-- **C142**: the supports: a uniform distribution covers its range, a delta distribution its point, a normal distribution
six standard deviations on each side, an asymmetric one six of each, a half-normal one six on the side of the sign. -/
theorem C142_support (E : Env) (kw : Dict String PVal) (o : Obj) (c s t : ℝ) (hc : IsNum (arg kw "central_value") c) :
    (construct E .uniform kw = .ok o → IsNum (arg kw "half_range") s → SupportIs o (c - s) (c + s)) ∧
    (construct E .delta kw = .ok o → SupportIs o c c) ∧
    (construct E .normal kw = .ok o → IsNum (arg kw "standard_deviation") s → 0 < s ∧ SupportIs o (c - 6 * s) (c + 6 * s)) ∧
    (construct E .asymmetricNormal kw = .ok o → IsNum (arg kw "right_deviation") s → IsNum (arg kw "left_deviation") t →
      0 < s ∧ 0 < t ∧ SupportIs o (c - 6 * t) (c + 6 * s)) ∧
    (construct E .halfNormal kw = .ok o → IsNum (arg kw "standard_deviation") s → s ≠ 0 ∧ (0 < s → SupportIs o c (c + 6 * s)) ∧
      (s < 0 → SupportIs o (c + 6 * s) c)) ∧
    (construct E .logNormal kw = .ok o → IsNum (arg kw "factor") s → c ≠ 0 ∧ 1 < s ∧
      (0 < c → SupportIs o 0 (c * s ^ 6)) ∧ (c < 0 → SupportIs o (-c / s ^ 6) 0)) := by
  rw [← isNum_iff] at hc
  refine ⟨fun h hs => ?_, fun h => ?_, fun h hs => ?_, fun h hs ht => ?_, fun h hs => ?_, fun h hs => ?_⟩
  all_goals have hb := (construct_args h).1
  all_goals (try rw [← isNum_iff] at hs)
  · replace hb : bUniform (arg kw "central_value") (arg kw "half_range") = .ok o.attrs := hb
    simp only [bUniform, hc, hs, ok_bind_eq, mkUniform] at hb
    injection hb with hb
    unfold SupportIs; rw [← hb]; rfl
  · replace hb : bDelta (arg kw "central_value") = .ok o.attrs := hb
    simp only [bDelta, hc, ok_bind_eq, mkDelta] at hb
    injection hb with hb
    unfold SupportIs; rw [← hb]; rfl
  · replace hb : bNormal (arg kw "central_value") (arg kw "standard_deviation") = .ok o.attrs := hb
    simp only [bNormal, hc, hs, ok_bind_eq, mkNormal] at hb
    split at hb
    · cases hb
    · rename_i h0
      push Not at h0
      injection hb with hb
      refine ⟨h0, ?_⟩
      unfold SupportIs; rw [← hb]; rfl
  · rw [← isNum_iff] at ht
    replace hb : bAsym (arg kw "central_value") (arg kw "right_deviation") (arg kw "left_deviation") = .ok o.attrs := hb
    simp only [bAsym, hc, hs, ht, ok_bind_eq, mkAsym] at hb
    split at hb
    · cases hb
    · rename_i h0
      push Not at h0
      injection hb with hb
      refine ⟨h0.1, h0.2, ?_⟩
      unfold SupportIs; rw [← hb]; rfl
  · replace hb : bHalf (arg kw "central_value") (arg kw "standard_deviation") = .ok o.attrs := hb
    simp only [bHalf, hc, hs, ok_bind_eq, mkHalf] at hb
    split at hb
    · cases hb
    · rename_i h0
      injection hb with hb
      have e : Dict.get? (uniAttrs (.half c s) [("central_value", arg kw "central_value"), ("standard_deviation", arg kw "standard_deviation")]) "support" =
        some (.seq true [.float (min c (c + 6 * s)), .float (max c (c + 6 * s))]) := rfl
      refine ⟨h0, fun hp => ?_, fun hp => ?_⟩
      · unfold SupportIs
        rw [← hb, e, min_eq_left (by linarith), max_eq_right (by linarith)]
      · unfold SupportIs
        rw [← hb, e, min_eq_right (by linarith), max_eq_left (by linarith)]
  · replace hb : bLogNormal (arg kw "central_value") (arg kw "factor") = .ok o.attrs := hb
    simp only [bLogNormal, hc, hs, ok_bind_eq, mkLogNormal] at hb
    split at hb
    · cases hb
    · rename_i h0
      split at hb
      · cases hb
      · rename_i h1
        push Not at h1
        injection hb with hb
        have e : Dict.get? (uniAttrs (.logNormal c s) [("central_value", arg kw "central_value"), ("factor", arg kw "factor")]) "support" =
          some (pair (UDist.support (.logNormal c s))) := rfl
        have hl : ∀ x : ℝ, Real.exp (6 * Real.log s) = s ^ 6 := by
          intro x
          rw [mul_comm, Real.exp_mul, Real.exp_log (by linarith)]
          norm_cast
        refine ⟨h0, h1, fun hp => ?_, fun hp => ?_⟩
        · unfold SupportIs
          rw [← hb, e]
          simp only [UDist.support, if_neg (not_lt.2 hp.le), pair, Real.exp_add, hl 0, abs_of_pos hp, Real.exp_log hp]
        · unfold SupportIs
          rw [← hb, e]
          simp only [UDist.support, if_pos hp, pair, Real.exp_sub, hl 0, abs_of_neg hp, Real.exp_log (neg_pos.2 hp)]

/-- The hypotheses are met: a log-normal distribution with a factor of two around 3. -/
example (E : Env) : ∃ o, construct E .logNormal [("central_value", .int 3), ("factor", .float 2)] = .ok o ∧ SupportIs o 0 (3 * 2 ^ 6) := by
  have h : construct E .logNormal [("central_value", .int 3), ("factor", .float 2)] =
      .ok ⟨.logNormal, uniAttrs (.logNormal 3 2) [("central_value", .int 3), ("factor", .float 2)]⟩ := by
    have h2 := construct_zip E .logNormal [.int 3, .float 2] rfl
    have : build E .logNormal [.int 3, .float 2] = .ok (uniAttrs (.logNormal 3 2) [("central_value", .int 3), ("factor", .float 2)]) := by
      show bLogNormal _ _ = _
      simp [bLogNormal, num, mkLogNormal]
    rw [this] at h2
    exact h2
  refine ⟨_, h, ((C142_support E _ _ 3 2 0 (Or.inr ⟨3, rfl, by norm_num⟩)).2.2.2.2.2 h (Or.inl rfl)).2.2.1 (by norm_num)⟩

/-- **C142**: a discrete uniform distribution without a central value is centred at the midpoint truncated towards zero, the
bounds are truncated in the same way; a central value outside of the bounds is a `ValueError` (unless it is zero). -/
theorem C142_discrete (E : Env) (lo hi : ℤ) (c : ℤ) :
    construct E .discreteUniform [("lowest_value", .int lo), ("highest_value", .int hi)] =
      .ok ⟨.discreteUniform, [("lowest_value", .int lo), ("highest_value", .int hi), ("central_value", .int (Int.tdiv (lo + hi) 2))]⟩ ∧
    (lo ≤ c → c ≤ hi → construct E .discreteUniform [("lowest_value", .int lo), ("highest_value", .int hi), ("central_value", .int c)] =
      .ok ⟨.discreteUniform, [("lowest_value", .int lo), ("highest_value", .int hi), ("central_value", .int c)]⟩) ∧
    (c ≠ 0 → c < lo ∨ hi < c → construct E .discreteUniform [("lowest_value", .int lo), ("highest_value", .int hi), ("central_value", .int c)] =
      .error .valueError) := by
  have ht : ∀ n : ℤ, trunc (n : ℝ) = n := by
    intro n; unfold trunc; split <;> simp
  have hh : trunc (((lo : ℝ) + hi) / 2) = Int.tdiv (lo + hi) 2 := by
    unfold trunc
    have e : ((lo : ℝ) + hi) / 2 = ((lo + hi : ℤ) : ℝ) / ((2 : ℤ) : ℝ) := by push_cast; ring
    generalize lo + hi = n at e
    rw [e]
    split
    · rename_i h
      have hn : n < 0 := by
        have : (n : ℝ) < 0 := by
          by_contra h'; push Not at h'
          have : (0 : ℝ) ≤ (n : ℝ) / ((2 : ℤ) : ℝ) := by positivity
          linarith
        exact_mod_cast this
      have h1 : Int.tdiv n 2 = -((-n) / 2) := by
        rw [← Int.tdiv_eq_ediv_of_nonneg (by omega), Int.neg_tdiv, neg_neg]
      rw [h1, Int.ceil_eq_iff]
      have h2 : 2 * ((-n) / 2) ≤ -n := by omega
      have h3 : -n < 2 * ((-n) / 2) + 2 := by omega
      have h2' : 2 * (((-n) / 2 : ℤ) : ℝ) ≤ -(n : ℝ) := by exact_mod_cast h2
      have h3' : -(n : ℝ) < 2 * (((-n) / 2 : ℤ) : ℝ) + 2 := by exact_mod_cast h3
      push_cast
      constructor <;> linarith
    · rename_i h
      have hn : 0 ≤ n := by
        by_contra h'
        push Not at h'
        have : (n : ℝ) < 0 := by exact_mod_cast h'
        apply h
        push_cast
        linarith
      rw [Int.tdiv_eq_ediv_of_nonneg hn, Int.floor_eq_iff]
      have h2 : 2 * (n / 2) ≤ n := by omega
      have h3 : n < 2 * (n / 2) + 2 := by omega
      have h2' : 2 * ((n / 2 : ℤ) : ℝ) ≤ (n : ℝ) := by exact_mod_cast h2
      have h3' : (n : ℝ) < 2 * ((n / 2 : ℤ) : ℝ) + 2 := by exact_mod_cast h3
      push_cast
      constructor <;> linarith
  have hb : ∀ v, (params .discreteUniform).mapM (bindArg [("lowest_value", .int lo), ("highest_value", .int hi), ("central_value", v)]) =
      .ok [.int lo, .int hi, v] := by
    intro v; simp [params, bindArg, Dict.get?, List.mapM_cons]
  have hb0 : (params .discreteUniform).mapM (bindArg [("lowest_value", .int lo), ("highest_value", .int hi)]) =
      .ok [.int lo, .int hi, .none] := by
    simp [params, bindArg, Dict.get?, List.mapM_cons]
  have hk : ∀ v : PVal, ((Dict.keys [("lowest_value", PVal.int lo), ("highest_value", .int hi), ("central_value", v)]).all
      fun k => decide (k ∈ (params .discreteUniform).map Prod.fst)) = true := fun v => rfl
  refine ⟨?_, fun h1 h2 => ?_, fun h0 h1 => ?_⟩
  · unfold construct
    rw [if_pos (by rfl), hb0, ok_bind_eq]
    show bDiscrete _ _ _ >>= _ = _
    simp only [bDiscrete, num_int, ok_bind_eq, optNum, ht, hh]
  · unfold construct
    rw [if_pos (hk _), hb, ok_bind_eq]
    show bDiscrete _ _ _ >>= _ = _
    simp only [bDiscrete, num_int, ok_bind_eq, optNum_int, ht]
    rw [if_neg]
    · rfl
    · rintro ⟨_, h | h⟩ <;> norm_cast at h <;> omega
  · unfold construct
    rw [if_pos (hk _), hb, ok_bind_eq]
    show bDiscrete _ _ _ >>= _ = _
    simp only [bDiscrete, num_int, ok_bind_eq, optNum_int, ht]
    rw [if_pos]
    · rfl
    · exact ⟨by exact_mod_cast h0, by rcases h1 with h | h; exact Or.inr (by exact_mod_cast h); exact Or.inl (by exact_mod_cast h)⟩

/-- The number of counts as an argument: a number or nothing.  (Specification.) -/
def IsOptNum (v : PVal) (r : Option ℝ) : Prop := (v = .none ∧ r = none) ∨ ∃ x, IsNum v x ∧ r = some x

theorem isOptNum_iff (v : PVal) (r : Option ℝ) : optNum v = .ok r ↔ IsOptNum v r := by
  cases v <;> simp [optNum, num, IsOptNum, IsNum, Bind.bind, Except.bind, eq_comm]

/-- **C142**: the attributes of a counting process: with `N` observed and `b` expected background events the shape parameter is
`N + 1`, the location `-b` and the scale `1` in units of the scale factor; the central value is the signal `N - b`, or zero if it
is negative; the three counts are complete and consistent. -/
theorem C142_counting (E : Env) (kw : Dict String PVal) (o : Obj) (sf : ℝ) (h : construct E .gammaCounting kw = .ok o)
    (hs : IsNum (arg kw "scale_factor") sf) :
    0 < sf ∧ ∃ N b : ℝ, (∀ x, IsNum (arg kw "counts_total") x → N = x) ∧ (∀ x, IsNum (arg kw "counts_background") x → b = x) ∧
      (arg kw "counts_background" = .none → ∀ x, IsNum (arg kw "counts_signal") x → b = N - x) ∧
      (arg kw "counts_total" = .none → ∀ x, IsNum (arg kw "counts_signal") x → N = x + b) ∧
      Dict.get? o.attrs "counts_total" = some (.float N) ∧ Dict.get? o.attrs "counts_background" = some (.float b) ∧
      Dict.get? o.attrs "a" = some (.float (N + 1)) ∧ Dict.get? o.attrs "loc" = some (.float (-b * sf)) ∧
      Dict.get? o.attrs "scale" = some (.float sf) ∧ Dict.get? o.attrs "scale_factor" = some (.float sf) ∧
      Dict.get? o.attrs "central_value" = some (.float (max 0 ((N - b) * sf))) := by
  have hb : bCounting (arg kw "scale_factor") (arg kw "counts_total") (arg kw "counts_background") (arg kw "counts_signal") = .ok o.attrs :=
    (construct_args h).1
  rw [← isNum_iff] at hs
  simp only [bCounting, hs, ok_bind_eq] at hb
  obtain ⟨t, ht, hb⟩ := bind_eq_ok hb
  obtain ⟨b, hbk, hb⟩ := bind_eq_ok hb
  obtain ⟨s, hsg, hb⟩ := bind_eq_ok hb
  obtain ⟨c, hc, hb⟩ := bind_eq_ok hb
  injection hb with hb
  unfold mkCounting at hc
  split at hc
  · cases hc
  · rename_i h0
    push Not at h0
    obtain ⟨n, hn, hc⟩ := bind_eq_ok hc
    obtain ⟨g, hg, hc⟩ := bind_eq_ok hc
    injection hc with hc
    unfold mkGamma at hg
    split at hg
    · cases hg
    injection hg with hg
    have num_opt : ∀ v x, IsNum v x → optNum v = .ok (some x) := by
      intro v x hv; rw [isOptNum_iff]; exact Or.inr ⟨x, hv, rfl⟩
    have hN : (∀ x, t = some x → n.total = x) ∧ (∀ x, b = some x → n.background = x) ∧
        (b = none → ∀ x, s = some x → n.background = n.total - x) ∧ (t = none → ∀ x, s = some x → n.total = x + n.background) := by
      unfold resolveCounts at hn
      split at hn
      · cases hn
      split at hn
      · cases hn
      split at hn
      · cases hn
      split at hn
      · cases hn
      split at hn <;> cases hn <;> simp
    refine ⟨h0, n.total, n.background, fun x hx => hN.1 x ?_, fun x hx => hN.2.1 x ?_, fun h x hx => hN.2.2.1 ?_ x ?_,
      fun h x hx => hN.2.2.2 ?_ x ?_, ?_⟩
    · rw [num_opt _ _ hx] at ht; injection ht with ht; exact ht.symm
    · rw [num_opt _ _ hx] at hbk; injection hbk with ht; exact ht.symm
    · rw [h] at hbk; injection hbk with ht; exact ht.symm
    · rw [num_opt _ _ hx] at hsg; injection hsg with ht; exact ht.symm
    · rw [h] at ht; injection ht with ht; exact ht.symm
    · rw [num_opt _ _ hx] at hsg; injection hsg with ht; exact ht.symm
    · rw [← hb, ← hc, ← hg]
      refine ⟨rfl, rfl, rfl, rfl, rfl, rfl, ?_⟩
      have e : Dict.get? (countAttrs ⟨sf, n, ⟨n.total + 1, -n.background * sf, sf⟩⟩) "central_value" =
        some (.float (FrozenGamma.modePos ⟨n.total + 1, -n.background * sf, sf⟩)) := rfl
      rw [e]
      congr 2
      unfold FrozenGamma.modePos FrozenGamma.mode
      split
      · rename_i h; simp only at h; rw [max_eq_left (by nlinarith)]
      · rename_i h; simp only at h; rw [max_eq_right (by nlinarith)]; ring

/-- The hypotheses are met: 5 events, 2 of background; and the signal 3 is deduced. -/
example (E : Env) : ∃ o, construct E .gammaCounting [("scale_factor", .float 2), ("counts_total", .int 5), ("counts_background", .int 2)] = .ok o ∧
    Dict.get? o.attrs "central_value" = some (.float 6) := by
  have hb : (params .gammaCounting).mapM (bindArg [("scale_factor", .float 2), ("counts_total", .int 5), ("counts_background", .int 2)]) =
      .ok [.float 2, .int 5, .int 2, .none] := by
    simp [params, bindArg, Dict.get?, List.mapM_cons]
  have hr : resolveCounts (some ((5 : ℤ) : ℝ)) (some ((2 : ℤ) : ℝ)) none = .ok ⟨((5 : ℤ) : ℝ), ((2 : ℤ) : ℝ), ((5 : ℤ) : ℝ) - ((2 : ℤ) : ℝ)⟩ := by
    unfold resolveCounts
    rw [if_neg (by rintro ⟨x, h, hx⟩; cases h; norm_num at hx), if_neg (by rintro ⟨x, h, hx⟩; cases h; norm_num at hx),
      if_neg (by simp [badTriple]), if_neg (by decide)]
  have h : ∃ o, construct E .gammaCounting [("scale_factor", .float 2), ("counts_total", .int 5), ("counts_background", .int 2)] = .ok o := by
    unfold construct
    rw [if_pos (by rfl), hb, ok_bind_eq]
    show ∃ o, bCounting _ _ _ _ >>= _ = _
    have ho : optNum PVal.none = .ok none := rfl
    simp only [bCounting, num_float, optNum_int, ho, ok_bind_eq, mkCounting, hr]
    rw [if_neg (by norm_num)]
    simp only [mkGamma]
    rw [if_neg (by norm_num)]
    exact ⟨_, rfl⟩
  obtain ⟨o, ho⟩ := h
  refine ⟨o, ho, ?_⟩
  obtain ⟨_, N, b, hN, hB, _, _, _, _, _, _, _, _, hc⟩ := C142_counting E _ o 2 ho (Or.inl rfl)
  rw [hc, hN 5 (Or.inr ⟨5, rfl, by norm_num⟩), hB 2 (Or.inr ⟨2, rfl, by norm_num⟩)]
  norm_num

/-- **C142**: the attributes of a Gamma distribution: the central value is the mode, and not negative for the positive one; a
positive `loc` is a `ValueError` for all three classes. -/
theorem C142_gamma (E : Env) (kw : Dict String PVal) (a loc scale : ℝ) (h1 : IsNum (arg kw "a") a) (h2 : IsNum (arg kw "loc") loc)
    (h3 : IsNum (arg kw "scale") scale) :
    (∀ o, construct E .gamma kw = .ok o → loc ≤ 0 ∧ Dict.get? o.attrs "central_value" = some (.float (loc + (a - 1) * scale)) ∧
      Dict.get? o.attrs "a" = some (arg kw "a") ∧ Dict.get? o.attrs "loc" = some (arg kw "loc") ∧ Dict.get? o.attrs "scale" = some (arg kw "scale")) ∧
    (∀ o, construct E .gammaPositive kw = .ok o → loc ≤ 0 ∧ Dict.get? o.attrs "central_value" = some (.float (max 0 (loc + (a - 1) * scale))) ∧
      Dict.get? o.attrs "a" = some (arg kw "a") ∧ Dict.get? o.attrs "loc" = some (arg kw "loc") ∧ Dict.get? o.attrs "scale" = some (arg kw "scale")) := by
  rw [← isNum_iff] at h1 h2 h3
  constructor
  · intro o h
    have hb : bGamma (arg kw "a") (arg kw "loc") (arg kw "scale") = .ok o.attrs := (construct_args h).1
    simp only [bGamma, h1, h2, h3, ok_bind_eq, mkGamma] at hb
    split at hb
    · cases hb
    · rename_i h0
      push Not at h0
      injection hb with hb
      rw [← hb]
      exact ⟨h0, rfl, rfl, rfl, rfl⟩
  · intro o h
    have hb : bGammaPos (arg kw "a") (arg kw "loc") (arg kw "scale") = .ok o.attrs := (construct_args h).1
    simp only [bGammaPos, h1, h2, h3, ok_bind_eq, mkGamma] at hb
    split at hb
    · cases hb
    · rename_i h0
      push Not at h0
      injection hb with hb
      rw [← hb]
      refine ⟨h0, ?_, rfl, rfl, rfl⟩
      show some (PVal.float (FrozenGamma.modePos ⟨a, loc, scale⟩)) = _
      congr 2
      unfold FrozenGamma.modePos FrozenGamma.mode
      split
      · rename_i h; simp only at h; rw [max_eq_left h.le]
      · rename_i h; simp only at h; rw [max_eq_right (not_lt.1 h)]

/-- **C142** (finding): `GeneralGammaDistributionPositive` cannot be used directly: a positive `loc` is a `ValueError`, and all other
numbers for which the convolution succeeds end in an `AttributeError`. -/
theorem C142_general_positive (E : Env) (a loc scale std : ℝ) :
    (0 < loc → construct E .generalGammaPositive [("a", .float a), ("loc", .float loc), ("scale", .float scale), ("gaussian_standard_deviation", .float std)] =
      .error .valueError) ∧
    (loc ≤ 0 → ∀ n, E.getXY a loc scale std = .ok n →
      construct E .generalGammaPositive [("a", .float a), ("loc", .float loc), ("scale", .float scale), ("gaussian_standard_deviation", .float std)] =
      .error .attributeError) := by
  have hb : (params .generalGammaPositive).mapM (bindArg [("a", .float a), ("loc", .float loc), ("scale", .float scale), ("gaussian_standard_deviation", .float std)]) =
      .ok [.float a, .float loc, .float scale, .float std] := by
    simp [params, bindArg, Dict.get?, List.mapM_cons]
  constructor
  · intro h
    unfold construct
    rw [if_pos (by rfl), hb, ok_bind_eq]
    show bGenPositive _ _ _ _ _ >>= _ = _
    simp only [bGenPositive, num_float, ok_bind_eq]
    rw [if_pos h]; rfl
  · intro h n hn
    unfold construct
    rw [if_pos (by rfl), hb, ok_bind_eq]
    show bGenPositive _ _ _ _ _ >>= _ = _
    simp only [bGenPositive, num_float, ok_bind_eq]
    rw [if_neg (not_lt.2 h), hn]; rfl

/-- **C142**: a kernel density estimate needs a distribution as its kernel (`AttributeError` otherwise) that is centred at zero
(`AssertionError` otherwise), and uses as many bins as data points, but at most 1000, if no number is given. -/
theorem C142_kde (E : Env) (data : List ℝ) (c : Cls) (a : Dict String PVal) (v : PVal) (hv : Dict.get? a "central_value" = some v) (m : ℝ)
    (hm : IsNum v m) :
    (m ≠ 0 → construct E .kernelDensityEstimate [("data", ofVec data), ("kernel", .dist c a)] = .error .assertionError) ∧
    (m = 0 → ∀ o, construct E .kernelDensityEstimate [("data", ofVec data), ("kernel", .dist c a)] = .ok o →
      Dict.get? o.attrs "n_bins" = some (.int (min data.length 1000)) ∧ ∃ d, E.kde data ⟨c, a⟩ (min data.length 1000) = .ok d ∧
        Dict.get? o.attrs "x" = some (ofVec d.x) ∧ Dict.get? o.attrs "y" = some (ofVec d.y) ∧
        Dict.get? o.attrs "central_value" = some (.float d.central) ∧ SupportIs o d.support.1 d.support.2 ∧
        Dict.get? o.attrs "_cdf" = some (ofVec d.cdfTab)) ∧
    (m = 0 → ∀ n : ℤ, ∀ o, construct E .kernelDensityEstimate [("data", ofVec data), ("kernel", .dist c a), ("n_bins", .int n)] = .ok o →
      Dict.get? o.attrs "n_bins" = some (.int n) ∧ ∃ d, E.kde data ⟨c, a⟩ n = .ok d ∧ Dict.get? o.attrs "y" = some (ofVec d.y)) ∧
    ∀ r : ℝ, construct E .kernelDensityEstimate [("data", ofVec data), ("kernel", .float r)] = .error .attributeError := by
  have hb : ∀ k : PVal, (params .kernelDensityEstimate).mapM (bindArg [("data", ofVec data), ("kernel", k)]) = .ok [ofVec data, k, .none] := by
    intro k; simp [params, bindArg, Dict.get?, List.mapM_cons]
  have hb' : ∀ k n : PVal, (params .kernelDensityEstimate).mapM (bindArg [("data", ofVec data), ("kernel", k), ("n_bins", n)]) = .ok [ofVec data, k, n] := by
    intro k n; simp [params, bindArg, Dict.get?, List.mapM_cons]
  have hnorm : norm v = .float m := by
    rcases hm with rfl | ⟨n, rfl, rfl⟩ <;> simp [norm]
  refine ⟨fun h0 => ?_, fun h0 o ho => ?_, fun h0 n o ho => ?_, fun r => ?_⟩
  · unfold construct
    rw [if_pos (by rfl), hb, ok_bind_eq]
    have h2 : build E .kernelDensityEstimate [ofVec data, .dist c a, .none] = .error .assertionError := by
      simp only [build, bKDE, hv]
      rw [if_pos (by rw [hnorm]; simpa using h0)]
    rw [h2]; rfl
  · have h2 : bKDE E (ofVec data) (.dist c a) .none = .ok o.attrs := (construct_args ho).1
    simp only [bKDE, hv] at h2
    rw [if_neg (by rw [hnorm, h0]; simp)] at h2
    simp only [vec_ofVec, ok_bind_eq, bins] at h2
    obtain ⟨d, hd, h2⟩ := bind_eq_ok h2
    injection h2 with h2
    unfold SupportIs
    rw [← h2]
    have e : min (data.length : ℤ) 1000 = min 1000 (data.length : ℤ) := min_comm _ _
    rw [e]
    exact ⟨rfl, d, hd, rfl, rfl, rfl, rfl, rfl⟩
  · have h2 : bKDE E (ofVec data) (.dist c a) (.int n) = .ok o.attrs := (construct_args ho).1
    simp only [bKDE, hv] at h2
    rw [if_neg (by rw [hnorm, h0]; simp)] at h2
    simp only [vec_ofVec, ok_bind_eq, bins] at h2
    obtain ⟨d, hd, h2⟩ := bind_eq_ok h2
    injection h2 with h2
    rw [← h2]
    exact ⟨rfl, d, hd, rfl⟩
  · unfold construct
    rw [if_pos (by rfl), hb, ok_bind_eq]
    rfl

/-- **C142**: a numerical distribution given by two sequences keeps them as they are; the support is the first and the last
point, the central value lies in between; something that is not a sequence is a `TypeError`. -/
theorem C142_numerical (E : Env) (kw : Dict String PVal) :
    (∀ o, construct E .numerical kw = .ok o → ∃ x y : List ℝ, ∃ x0 x1, vec (arg kw "x") = .ok x ∧ vec (arg kw "y") = .ok y ∧
      x.length = y.length ∧ x.head? = some x0 ∧ x.getLast? = some x1 ∧ SupportIs o x0 x1 ∧
      Dict.get? o.attrs "x" = some (arg kw "x") ∧ Dict.get? o.attrs "y" = some (arg kw "y") ∧
      ∀ c, IsNum (arg kw "central_value") c → x0 ≤ c ∧ c ≤ x1 ∧ Dict.get? o.attrs "central_value" = some (.float c)) ∧
    ∀ r : ℝ, ∀ y : PVal, construct E .numerical [("x", .float r), ("y", y)] = .error .typeError := by
  constructor
  · intro o h
    have hb : bNumerical (arg kw "x") (arg kw "y") (arg kw "central_value") = .ok o.attrs := (construct_args h).1
    unfold bNumerical at hb
    obtain ⟨x, hx, hb⟩ := bind_eq_ok hb
    obtain ⟨y, hy, hb⟩ := bind_eq_ok hb
    obtain ⟨c, hc, hb⟩ := bind_eq_ok hb
    obtain ⟨d, hd, hb⟩ := bind_eq_ok hb
    injection hb with hbb
    clear hb
    unfold Num.mk' at hd
    obtain ⟨z, hz, hd⟩ := bind_eq_ok hd
    unfold finishNum at hd
    cases x with
    | nil => cases hd
    | cons x0 r =>
      simp only at hd
      split at hd
      · cases hd
      rename_i hlen
      injection hd with hd
      refine ⟨x0 :: r, y, x0, (x0 :: r).getLast (by simp), hx, hy, (not_not.1 hlen).symm, rfl, List.getLast?_eq_some_getLast _, ?_, ?_, ?_, ?_⟩
      · unfold SupportIs; rw [← hbb, ← hd]; rfl
      · rw [← hbb]; rfl
      · rw [← hbb]; rfl
      · intro c' hc'
        have : c = some c' := by
          have := (isOptNum_iff (arg kw "central_value") (some c')).2 (Or.inr ⟨c', hc', rfl⟩)
          rw [this] at hc; injection hc with hc; exact hc.symm
        rw [this] at hz
        simp only [chooseCentral] at hz
        split at hz
        · rename_i hh
          injection hz with hz
          refine ⟨hh.1, hh.2, ?_⟩
          rw [← hbb, ← hd, ← hz]; rfl
        · cases hz
  · intro r y
    have hb : (params .numerical).mapM (bindArg [("x", .float r), ("y", y)]) = .ok [.float r, y, .none] := by
      simp [params, bindArg, Dict.get?, List.mapM_cons]
    unfold construct
    rw [if_pos (by rfl), hb, ok_bind_eq]
    rfl

/-- **C142**: the support of a multivariate normal distribution is six standard deviations on both sides of the central values. -/
theorem C142_mvn_support (E : Env) (kw : Dict String PVal) (o : Obj) (h : construct E .multivariateNormal kw = .ok o) :
    ∃ c s : List ℝ, c.length = s.length ∧ vec (arg kw "central_value") = .ok c ∧ Dict.get? o.attrs "central_value" = some (arg kw "central_value") ∧
      Dict.get? o.attrs "standard_deviation" = some (ofVec s) ∧
      Dict.get? o.attrs "support" = some (ofMat [List.zipWith (fun c s => c - 6 * s) c s, List.zipWith (fun c s => c + 6 * s) c s]) := by
  have hb : bMVN (arg kw "central_value") (arg kw "covariance") (arg kw "standard_deviation") (arg kw "correlation") = .ok o.attrs := (construct_args h).1
  unfold bMVN at hb
  obtain ⟨c, hc, hb⟩ := bind_eq_ok hb
  obtain ⟨cf, hcf, hb⟩ := bind_eq_ok hb
  obtain ⟨cov, hcov, hb⟩ := bind_eq_ok hb
  obtain ⟨sd, hsd, hb⟩ := bind_eq_ok hb
  obtain ⟨corr, hcorr, hb⟩ := bind_eq_ok hb
  obtain ⟨d, hd, hb⟩ := bind_eq_ok hb
  injection hb with hb
  refine ⟨c, fnList d.sd, ?_, hc, ?_, ?_, ?_⟩
  · simp [fnList]
  · rw [← hb]; rfl
  · rw [← hb]; rfl
  · rw [← hb]
    show some (ofMat [fnList d.support.1, fnList d.support.2]) = _
    have hcen : d.central = cf := by
      cases cov with
      | some m =>
        have hd' : mkMVNCov cf true m = .ok d := hd
        unfold mkMVNCov MVN.finish at hd'
        split at hd' <;> cases hd'
        rfl
      | none =>
        cases sd with
        | none => cases hd
        | some s =>
          have hd' : mkMVNSd cf true s corr = .ok d := hd
          unfold mkMVNSd MVN.finish at hd'
          split at hd' <;> cases hd'
          rfl
    have hz : ∀ f : ℝ → ℝ → ℝ, fnList (fun i => f (d.central i) (d.sd i)) = List.zipWith f c (fnList d.sd) := by
      intro f
      have hcl : ∀ i : Fin c.length, cf i = c[i] := by
        unfold fnOf at hcf
        rw [if_pos rfl] at hcf
        injection hcf with hcf
        intro i
        rw [← hcf]
        simp
      rw [hcen]
      apply List.ext_getElem
      · simp [fnList]
      · intro i h1 h2
        simp [fnList, hcl]
    congr 3
    · exact hz (fun c s => c - 6 * s)
    · congr 1
      exact hz (fun c s => c + 6 * s)

/-- **C142**: a Gaussian upper limit is a half-normal distribution at zero: the central value is 0, the limit is at the quantile of
the confidence level, and the support is six standard deviations. -/
theorem C142_gaussian_limit (E : Env) (kw : Dict String PVal) (o : Obj) (lim cl : ℝ) (h : construct E .gaussianUpperLimit kw = .ok o)
    (h1 : IsNum (arg kw "limit") lim) (h2 : IsNum (arg kw "confidence_level") cl) :
    0 < lim ∧ 0 ≤ cl ∧ cl ≤ 1 ∧ Dict.get? o.attrs "central_value" = some (.int 0) ∧
    Dict.get? o.attrs "limit" = some (arg kw "limit") ∧ Dict.get? o.attrs "confidence_level" = some (arg kw "confidence_level") ∧
    ∃ s, s * E.ppf (1 / 2 + cl / 2) = lim ∧ Dict.get? o.attrs "standard_deviation" = some (.float s) ∧ (0 < s → SupportIs o 0 (6 * s)) := by
  have hb : bLimit E (arg kw "limit") (arg kw "confidence_level") = .ok o.attrs := (construct_args h).1
  rw [← isNum_iff] at h1 h2
  simp only [bLimit, h1, h2, ok_bind_eq, mkGaussianLimit] at hb
  split at hb
  · cases hb
  rename_i hcl
  push Not at hcl
  split at hb
  · cases hb
  rename_i hl
  push Not at hl
  split at hb
  · cases hb
  rename_i hz
  simp only [ok_bind_eq] at hb
  injection hb with hb
  refine ⟨hl, hcl.2, hcl.1, ?_, ?_, ?_, lim / E.ppf (0.5 + cl / 2), ?_, ?_, ?_⟩
  · rw [← hb]; rfl
  · rw [← hb]; rfl
  · rw [← hb]; rfl
  · have e : (1 / 2 + cl / 2 : ℝ) = 0.5 + cl / 2 := by norm_num
    rw [e]
    apply div_mul_cancel₀
    intro h0; apply hz; rw [h0, div_zero]
  · rw [← hb]; rfl
  · intro hs
    unfold SupportIs
    rw [← hb]
    show some (pair (min 0 (0 + 6 * _), max 0 (0 + 6 * _))) = _
    rw [zero_add, min_eq_left (by linarith), max_eq_right (by linarith)]
    rfl

/-- **C142**: words and missing values are not numbers: `TypeError`. -/
theorem C142_not_a_number (E : Env) (v : PVal) (hv : ∀ r, ¬ IsNum v r) (s : ℝ) :
    construct E .normal [("central_value", v), ("standard_deviation", .float s)] = .error .typeError ∧
    construct E .uniform [("central_value", v), ("half_range", .float s)] = .error .typeError ∧
    construct E .delta [("central_value", v)] = .error .typeError := by
  have hn : num v = .error .typeError := by
    cases v with
    | int n => exact absurd (Or.inr ⟨n, rfl, rfl⟩) (hv n)
    | float r => exact absurd (Or.inl rfl) (hv r)
    | _ => rfl
  have b1 : (params .normal).mapM (bindArg [("central_value", v), ("standard_deviation", .float s)]) = .ok [v, .float s] := by
    simp [params, bindArg, Dict.get?, List.mapM_cons]
  have b2 : (params .uniform).mapM (bindArg [("central_value", v), ("half_range", .float s)]) = .ok [v, .float s] := by
    simp [params, bindArg, Dict.get?, List.mapM_cons]
  have b3 : (params .delta).mapM (bindArg [("central_value", v)]) = .ok [v] := by
    simp [params, bindArg, Dict.get?, List.mapM_cons]
  refine ⟨?_, ?_, ?_⟩
  · unfold construct
    rw [if_pos (by rfl), b1, ok_bind_eq]
    show bNormal _ _ >>= _ = _
    unfold bNormal; rw [hn]; rfl
  · unfold construct
    rw [if_pos (by rfl), b2, ok_bind_eq]
    show bUniform _ _ >>= _ = _
    unfold bUniform; rw [hn]; rfl
  · unfold construct
    rw [if_pos (by rfl), b3, ok_bind_eq]
    show bDelta _ >>= _ = _
    unfold bDelta; rw [hn]; rfl

/-- A word is not a number. -/
example (r : ℝ) : ¬ IsNum (.str "3 GeV") r := by rintro (h | ⟨n, h, _⟩) <;> cases h

end Verif.DistDict
