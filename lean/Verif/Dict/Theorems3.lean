import Verif.Dict.Theorems2
/-!
# C38 for the remaining classes
-/
set_option linter.unusedSectionVars false
set_option linter.unusedSimpArgs false
set_option linter.unusedVariables false
namespace Verif.DistDict
open Verif.Py Verif.Probability

/-- A general counting process with a very small but non-zero background uncertainty is reloaded with the
uncertainty 0: the table of the PDF is built with 0 instead of the original value. -/
theorem genCounting_small (E : Env) {sf t b s std : PVal} {a : Dict String PVal} {d tot : ℝ}
    (h : build E .generalGammaCounting [sf, t, b, s, std] = .ok a) (hd : num std = .ok d)
    (ht : Dict.get? a "counts_total" = some (.float tot)) (h0 : 0 ≤ tot) (hs : SmallStd d tot) :
    ∃ (sf' loc : ℝ) (n : Num ℝ), E.getXY (tot + 1) loc sf' d = .ok n ∧
      a.drop 6 = numAttrs n ∧
      (∀ n' , E.getXY (tot + 1) loc sf' 0 = .ok n' → roundTrip E ⟨.generalGammaCounting, a⟩ =
        .ok [⟨.generalGammaCounting, a.take 6 ++ numAttrs n'⟩]) := by
  replace h : bGenCounting E sf t b s std = .ok a := h
  unfold bGenCounting at h
  obtain ⟨sf', _, h⟩ := bind_eq_ok h
  obtain ⟨t', _, h⟩ := bind_eq_ok h
  obtain ⟨b', _, h⟩ := bind_eq_ok h
  obtain ⟨s', _, h⟩ := bind_eq_ok h
  obtain ⟨d', hd', h⟩ := bind_eq_ok h
  rw [hd] at hd'; cases hd'
  obtain ⟨p, hp, h⟩ := bind_eq_ok h
  cases h
  have htot : p.counts.total = tot := by
    have : some (PVal.float p.counts.total) = some (.float tot) := ht
    injection this with this; injection this
  subst htot
  obtain ⟨hsf, hstd, hc, h1, hb, hG, h2, h3⟩ := mkGeneralCounting_ok hp
  refine ⟨sf', -p.counts.background * sf', p.num, hG, rfl, ?_⟩
  intro n' hn'
  rw [roundTrip_eq E _ [.float p.scaleFactor, .float p.counts.total,
    .float p.counts.background, .float p.counts.signal, .float p.backgroundStd] rfl]
  · show bGenCounting E (thru (.float p.scaleFactor)) (thru (.float p.counts.total)) (thru (.float p.counts.background))
      (thru (.float p.counts.signal)) (thru (.float p.backgroundStd)) >>= _ = _
    simp only [bGenCounting, num_thru, optNum_thru, num_float, optNum_float, ok_bind_eq]
    rw [(h2 hs).1, mkGeneralCounting_again hp h0 0 le_rfl, h1, hn']
    simp only [ok_bind_eq]
    simp [genAttrs, (h2 hs).1, (h2 hs).2, h1, ite_self]
  · simp only [List.mem_cons, List.not_mem_nil, or_false]
    rintro v (rfl | rfl | rfl | rfl | rfl) <;> exact float_notDist _

theorem resolveStd_nonneg_irrel {std v : Option ℝ} {sd : ℝ} (h : resolveStd std v = .ok sd) :
    resolveStd (some sd) (some sd) = .ok sd := by simp [resolveStd]

theorem genLimit_decomp (E : Env) {l cl t b s std var : PVal} {a : Dict String PVal}
    (h : build E .generalGammaUpperLimit [l, cl, t, b, s, std, var] = .ok a) :
    ∃ (l' cl' sd : ℝ) (t' b' s' std' var' : Option ℝ) (u0 p : GeneralCounting (Num ℝ)),
      optNum std = .ok std' ∧ optNum var = .ok var' ∧ resolveStd std' var' = .ok sd ∧
      mkGeneralCounting E.getXY Real.sqrt 1 t' b' s' sd = .ok u0 ∧
      mkGeneralCounting E.getXY Real.sqrt (l' / E.numPpf u0.num cl') t' b' s' sd = .ok p ∧
      a = [("limit", .float l'), ("confidence_level", .float cl'), ("background_variance", .float sd)] ++ genAttrs p := by
  replace h : bGenLimit E l cl t b s std var = .ok a := h
  unfold bGenLimit at h
  obtain ⟨l', _, h⟩ := bind_eq_ok h
  obtain ⟨cl', _, h⟩ := bind_eq_ok h
  obtain ⟨t', _, h⟩ := bind_eq_ok h
  obtain ⟨b', _, h⟩ := bind_eq_ok h
  obtain ⟨s', _, h⟩ := bind_eq_ok h
  obtain ⟨std', h1, h⟩ := bind_eq_ok h
  obtain ⟨var', h2, h⟩ := bind_eq_ok h
  obtain ⟨u, hu, h⟩ := bind_eq_ok h
  unfold mkGeneralLimit at hu
  obtain ⟨sd, h3, hu⟩ := bind_eq_ok hu
  obtain ⟨u0, h4, hu⟩ := bind_eq_ok hu
  obtain ⟨p, h5, hu⟩ := bind_eq_ok hu
  cases hu
  cases h
  exact ⟨l', cl', sd, t', b', s', std', var', u0, p, h1, h2, h3, h4, h5, rfl⟩

theorem genLimit_args (E : Env) (l cl sd : ℝ) (p : GeneralCounting (Num ℝ)) :
    roundTrip E ⟨.generalGammaUpperLimit,
      [("limit", .float l), ("confidence_level", .float cl), ("background_variance", .float sd)] ++ genAttrs p⟩ =
    bGenLimit E (.float l) (.float cl) (.float p.counts.total) (.float p.counts.background) (.float p.counts.signal)
      (.float p.backgroundStd) (.float sd) >>= fun a => .ok [⟨.generalGammaUpperLimit, a⟩] := by
  rw [roundTrip_eq E _ [.float l, .float cl, .float p.counts.total,
    .float p.counts.background, .float p.counts.signal, .float p.backgroundStd, .float sd] rfl]
  · rfl
  · simp only [List.mem_cons, List.not_mem_nil, or_false]
    rintro v (rfl | rfl | rfl | rfl | rfl | rfl | rfl) <;> exact float_notDist _

/-- `GeneralGammaUpperLimit` with a background uncertainty that is zero or not very small. -/
theorem build_generalGammaUpperLimit (E : Env) {l cl t b s std var : PVal} {a : Dict String PVal} {d tot : ℝ}
    (h : build E .generalGammaUpperLimit [l, cl, t, b, s, std, var] = .ok a)
    (hd : Dict.get? a "background_variance" = some (.float d))
    (ht : Dict.get? a "counts_total" = some (.float tot)) (h0 : 0 ≤ tot) (hs : d = 0 ∨ ¬ SmallStd d tot) :
    Reloads E ⟨.generalGammaUpperLimit, a⟩ := by
  obtain ⟨l', cl', sd, t', b', s', std', var', u0, p, h1, h2, h3, h4, h5, rfl⟩ := genLimit_decomp E h
  have hd' : sd = d := by
    have : some (PVal.float sd) = some (.float d) := hd
    injection this with this; injection this
  have htot : p.counts.total = tot := by
    have : some (PVal.float p.counts.total) = some (.float tot) := ht
    injection this with this; injection this
  subst hd'; subst htot
  obtain ⟨hsf1, hstd1, hc1, hs1, hb1, hG1, _, _⟩ := mkGeneralCounting_ok h4
  obtain ⟨hsf2, hstd2, hc2, hs2, hb2, hG2, _, _⟩ := mkGeneralCounting_ok h5
  have hcc : u0.counts = p.counts := by rw [hc1] at hc2; injection hc2
  obtain ⟨e1, e2⟩ := mkGeneralCounting_same h4 (by rw [hcc]; exact h0) (by rw [hcc]; exact hs)
  obtain ⟨f1, f2⟩ := mkGeneralCounting_same h5 h0 hs
  refine ⟨_, ?_, rfl, rfl⟩
  rw [genLimit_args]
  simp only [bGenLimit, num_float, optNum_float, ok_bind_eq, mkGeneralLimit]
  rw [f1, resolveStd_nonneg_irrel h3]
  simp only [ok_bind_eq]
  rw [hcc, hs1] at e2
  rw [hs2] at f2
  rw [e2, ok_bind_eq, f2]
  rfl

/-- With a very small but non-zero background uncertainty reloading fails. -/
theorem genLimit_small (E : Env) {l cl t b s std var : PVal} {a : Dict String PVal} {d tot : ℝ}
    (h : build E .generalGammaUpperLimit [l, cl, t, b, s, std, var] = .ok a)
    (hd : Dict.get? a "background_variance" = some (.float d))
    (ht : Dict.get? a "counts_total" = some (.float tot)) (hne : d ≠ 0) (hs : SmallStd d tot) :
    roundTrip E ⟨.generalGammaUpperLimit, a⟩ = .error .valueError := by
  obtain ⟨l', cl', sd, t', b', s', std', var', u0, p, h1, h2, h3, h4, h5, rfl⟩ := genLimit_decomp E h
  have hd' : sd = d := by
    have : some (PVal.float sd) = some (.float d) := hd
    injection this with this; injection this
  have htot : p.counts.total = tot := by
    have : some (PVal.float p.counts.total) = some (.float tot) := ht
    injection this with this; injection this
  subst hd'; subst htot
  obtain ⟨hsf2, hstd2, hc2, hs2, hb2, hG2, k1, k2⟩ := mkGeneralCounting_ok h5
  rw [genLimit_args]
  simp only [bGenLimit, num_float, optNum_float, ok_bind_eq, mkGeneralLimit]
  rw [(k1 hs).1]
  simp only [resolveStd]
  rw [if_pos (Ne.symm hne)]
  rfl

/-! ## Kernel density estimates -/

/-- Reloading a `KernelDensityEstimate` always fails: its kernel has become a dictionary. -/
theorem kde_fails (E : Env) {args : List PVal} {a : Dict String PVal}
    (h : build E .kernelDensityEstimate args = .ok a) :
    raises (roundTrip E ⟨.kernelDensityEstimate, a⟩) := by
  match args, h with
  | [data, k, nb], h =>
    replace h : bKDE E data k nb = .ok a := h
    cases k with
    | dist c ka =>
      simp only [bKDE] at h
      split at h
      · cases h
      rename_i v hv
      split at h
      · cases h
      obtain ⟨l, hl, h⟩ := bind_eq_ok h
      obtain ⟨n, hn, h⟩ := bind_eq_ok h
      obtain ⟨d, hd, h⟩ := bind_eq_ok h
      cases h
      have hav : argVals ⟨.kernelDensityEstimate, [("data", data), ("kernel", .dist c ka), ("n_bins", n.1)] ++ numAttrs d⟩
          = .ok [data, .dist c ka, n.1] := rfl
      have hn1 : NotDist n.1 := by
        cases nb with
        | none => cases hn; exact int_notDist _
        | int k => cases hn; exact int_notDist _
        | _ => cases hn
      cases hk : argDict true ⟨c, ka⟩ with
      | ok dd =>
        rw [roundTrip_iter E _ [data, .dist c ka, n.1] [data, .dict dd, n.1] hav]
        · exact ⟨_, rfl⟩
        · rw [mapM_ok_iff]
          refine .cons (iterateVal_of_notDist (vec_notDist hl)) (.cons ?_ (.cons (iterateVal_of_notDist hn1) .nil))
          simp only [iterateVal, hk, ok_bind_eq]
      | error e =>
        -- a kernel that lacks one of its own arguments cannot be written out
        have : argDict true ⟨.kernelDensityEstimate, [("data", data), ("kernel", .dist c ka), ("n_bins", n.1)] ++ numAttrs d⟩
            = .ok [("distribution", .str (Cls.toStr .kernelDensityEstimate)), ("data", data), ("kernel", .dist c ka), ("n_bins", n.1)] := rfl
        unfold roundTrip getDict
        rw [this]
        simp only [ok_bind_eq, if_true]
        have hr := mapM_raises (fun e : String × PVal => iterateVal e.2 >>= fun v => Except.ok (e.1, v))
          [("distribution", .str (Cls.toStr .kernelDensityEstimate)), ("data", data), ("kernel", .dist c ka), ("n_bins", n.1)]
          (a := ("kernel", .dist c ka)) (by simp) ⟨e, by simp only [iterateVal, hk, error_bind_eq]⟩
        obtain ⟨e', he'⟩ := hr
        rw [he']
        exact ⟨e', rfl⟩
    | _ => cases h

/-- Reloading a `GaussianKDE` always fails: the number of bins has become a float. -/
theorem gaussianKDE_fails (E : Env) {args : List PVal} {a : Dict String PVal}
    (h : build E .gaussianKDE args = .ok a) : roundTrip E ⟨.gaussianKDE, a⟩ = .error .typeError := by
  match args, h with
  | [data, bw, nb], h =>
    replace h : bGaussianKDE E data bw nb = .ok a := h
    unfold bGaussianKDE at h
    obtain ⟨l, hl, h⟩ := bind_eq_ok h
    obtain ⟨bw', _, h⟩ := bind_eq_ok h
    obtain ⟨ka, hka, h⟩ := bind_eq_ok h
    obtain ⟨attrs, hat, h⟩ := bind_eq_ok h
    generalize bw'.getD (E.scott l) = w at hka h
    cases h
    simp only [bKDE] at hat
    split at hat
    · cases hat
    rename_i v hv
    split at hat
    · cases hat
    rename_i hv0
    obtain ⟨l2, hl2, hat⟩ := bind_eq_ok hat
    obtain ⟨n, hn, hat⟩ := bind_eq_ok hat
    obtain ⟨d, hd, hat⟩ := bind_eq_ok hat
    cases hat
    have hn1 : ∃ k : ℤ, n.1 = .int k := by
      cases nb with
      | none => cases hn; exact ⟨_, rfl⟩
      | int k => cases hn; exact ⟨_, rfl⟩
      | _ => cases hn
    obtain ⟨k, hk⟩ := hn1
    rw [hk]
    rw [roundTrip_eq E _ [data, .float w, .int k] rfl]
    · show bGaussianKDE E (thru data) (thru (.float w)) (thru (.int k)) >>= _ = _
      simp only [bGaussianKDE, vec_thru, hl, optNum_thru, optNum_float, ok_bind_eq, Option.getD_some, hka]
      have hb : bKDE E (thru data) (.dist .normal ka) (thru (.int k)) = .error .typeError := by
        simp only [bKDE]
        rw [hv]
        simp only [if_neg hv0, vec_thru, hl, ok_bind_eq]
        rfl
      rw [hb]; rfl
    · simp only [List.mem_cons, List.not_mem_nil, or_false]
      rintro v (rfl | rfl | rfl)
      · exact vec_notDist hl
      · exact float_notDist _
      · exact int_notDist _

/-! ## Multivariate normal -/

theorem vec_ofVec (l : List ℝ) : vec (ofVec l) = .ok l := by
  simp only [vec, ofVec]
  rw [mapM_ok_iff]
  induction l with
  | nil => exact .nil
  | cons a r ih => exact .cons rfl ih

theorem mat_ofMat (l : List (List ℝ)) : mat (ofMat l) = .ok l := by
  simp only [mat, ofMat]
  rw [mapM_ok_iff]
  induction l with
  | nil => exact .nil
  | cons a r ih => exact .cons (vec_ofVec a) ih

theorem fnList_getD {n : ℕ} (f : Fin n → ℝ) (i : Fin n) : (fnList f).getD i 0 = f i := by
  unfold fnList
  simp [List.getD]

theorem fnOf_fnList {n : ℕ} (f : Fin n → ℝ) : fnOf n (fnList f) = .ok f := by
  unfold fnOf
  rw [if_pos (by simp [fnList])]
  congr 1; funext i; exact fnList_getD f i

theorem matOf_matList {n : ℕ} (m : Matrix (Fin n) (Fin n) ℝ) : matOf n (matList m) = .ok m := by
  unfold matOf
  rw [if_pos]
  · congr 1
    funext i j
    show ((matList m).getD i []).getD j 0 = m i j
    have : (matList m).getD i [] = fnList (m i) := by simp [matList, List.getD]
    rw [this, fnList_getD]
  · refine ⟨by simp [matList], ?_⟩
    intro r hr
    unfold matList at hr
    obtain ⟨i, _, rfl⟩ := List.mem_map.1 hr
    simp [fnList]

theorem thru_seq_ne (v : PVal) (b : Bool) (l : List PVal) (h : v = .seq b l) : ∃ l', thru v = .seq false l' := by
  rw [h, thru_seq]; exact ⟨_, rfl⟩

theorem optMat_thru_ofMat {n : ℕ} (m : Matrix (Fin n) (Fin n) ℝ) :
    optMat n (thru (ofMat (matList m))) = .ok (some m) := by
  have h := mat_thru (ofMat (matList m))
  rw [mat_ofMat] at h
  obtain ⟨l', hl⟩ := thru_seq_ne (ofMat (matList m)) _ _ rfl
  rw [hl] at h ⊢
  simp only [optMat, h, ok_bind_eq, matOf_matList]

theorem optFn_thru_ofVec {n : ℕ} (f : Fin n → ℝ) : optFn n (thru (ofVec (fnList f))) = .ok (some f) := by
  have h := vec_thru (ofVec (fnList f))
  rw [vec_ofVec] at h
  obtain ⟨l', hl⟩ := thru_seq_ne (ofVec (fnList f)) _ _ rfl
  rw [hl] at h ⊢
  simp only [optFn, h, ok_bind_eq, fnOf_fnList]

theorem corrArg_thru_ofMat {n : ℕ} (m : Matrix (Fin n) (Fin n) ℝ) :
    corrArg n (thru (ofMat (matList m))) = .ok (.matrix m) := by
  have h := mat_thru (ofMat (matList m))
  rw [mat_ofMat] at h
  obtain ⟨l', hl⟩ := thru_seq_ne (ofMat (matList m)) _ _ rfl
  rw [hl] at h ⊢
  simp only [corrArg, h, ok_bind_eq, matOf_matList]

/-- Reloading a multivariate normal distribution calls the constructor with the stored covariance. -/
theorem mvn_roundTrip (E : Env) (c : PVal) (c' : List ℝ) (cf : Fin c'.length → ℝ) (hc : vec c = .ok c')
    (hcf : fnOf c'.length c' = .ok cf) (d : MVN c'.length) :
    roundTrip E ⟨.multivariateNormal, mvnAttrs c d⟩ =
      mkMVNCov cf true d.cov >>= fun d' => .ok [⟨.multivariateNormal, mvnAttrs (thru c) d'⟩] := by
  rw [roundTrip_eq E _ [c, ofMat (matList d.cov), ofVec (fnList d.sd), ofMat (matList d.corr)] rfl]
  · show bMVN (thru c) (thru _) (thru _) (thru _) >>= _ = _
    simp only [bMVN, vec_thru, hc, ok_bind_eq, hcf, optMat_thru_ofMat, optFn_thru_ofVec, corrArg_thru_ofMat, mkMVN]
    cases mkMVNCov cf true d.cov <;> rfl
  · simp only [List.mem_cons, List.not_mem_nil, or_false]
    rintro v (rfl | rfl | rfl | rfl)
    · exact vec_notDist hc
    all_goals exact seq_notDist _ _

theorem allcloseT_of_symm {n : ℕ} (a : Matrix (Fin n) (Fin n) ℝ) (h : ∀ i j, a i j = a j i) : allcloseT a := by
  intro i j
  rw [h i j, sub_self, abs_zero]
  have := abs_nonneg (a j i)
  have h1 : (0:ℝ) ≤ 1 / 10 ^ 8 := by norm_num
  have h2 : (0:ℝ) ≤ 1 / 10 ^ 5 * |a j i| := by positivity
  linarith

theorem symmetrise_idem {n : ℕ} (a : Matrix (Fin n) (Fin n) ℝ) : symmetrise (symmetrise a) = symmetrise a := by
  unfold symmetrise
  by_cases h : allcloseT a
  · rw [if_pos h, if_pos h]
  · rw [if_neg h, if_pos]
    apply allcloseT_of_symm
    intro i j
    simp only [Matrix.sub_apply, Matrix.add_apply, Matrix.transpose_apply]
    by_cases hij : i = j
    · rw [hij]
    · rw [Matrix.diagonal_apply_ne _ hij, Matrix.diagonal_apply_ne _ (Ne.symm hij)]; ring

theorem finish_ok {n : ℕ} {d d' : MVN n} (h : d.finish = .ok d') : d' = d ∧ (∀ i, 0 < d.cov i i) ∧ EigPos d.scaledCov := by
  unfold MVN.finish at h
  split at h
  · rename_i hh; cases h; exact ⟨rfl, hh⟩
  · cases h

/-- Given by its covariance: reloading gives an equal distribution. -/
theorem mvn_cov_again {n : ℕ} {cf : Fin n → ℝ} {cov : Matrix (Fin n) (Fin n) ℝ} {d : MVN n}
    (h : mkMVNCov cf true cov = .ok d) : mkMVNCov cf true d.cov = .ok d := by
  obtain ⟨h1, h2⟩ := finish_ok h
  have : mvnOfCov cf true d.cov = d := by
    rw [h1]
    simp only [mvnOfCov, symmetrise_idem]
  unfold mkMVNCov
  rw [this]
  rw [h1] at *
  unfold MVN.finish; rw [if_pos h2]

/-- Given by standard deviations and a symmetric correlation matrix with unit diagonal. -/
theorem mvn_sd_again {n : ℕ} {cf : Fin n → ℝ} {sd : Fin n → ℝ} {corr : CorrArg n} {d : MVN n}
    (h : mkMVNSd cf true sd corr = .ok d) (hsd : ∀ i, 0 < sd i)
    (hsym : ∀ i j, corr.toMatrix i j = corr.toMatrix j i) (hdiag : ∀ i, corr.toMatrix i i = 1) :
    mkMVNCov cf true d.cov = .ok d := by
  obtain ⟨h1, h2⟩ := finish_ok h
  have hcov : symmetrise d.cov = d.cov := by
    unfold symmetrise
    rw [if_pos]
    apply allcloseT_of_symm
    intro i j
    rw [h1]
    show sd i * sd j * corr.toMatrix i j = sd j * sd i * corr.toMatrix j i
    rw [hsym i j]; ring
  have hsq : ∀ i, Real.sqrt (d.cov i i) = sd i := by
    intro i
    rw [h1]
    show Real.sqrt (sd i * sd i * corr.toMatrix i i) = sd i
    rw [hdiag, mul_one, Real.sqrt_mul_self (hsd i).le]
  have : mvnOfCov cf true d.cov = d := by
    unfold mvnOfCov
    simp only [hcov, hsq]
    rw [h1]
    congr 1
    funext i j
    show (if i = j then 1 else sd i * sd j * corr.toMatrix i j / (sd i * sd j)) = corr.toMatrix i j
    split
    · rename_i hij; rw [hij, hdiag]
    · have := (hsd i).ne'; have := (hsd j).ne'
      field_simp
  unfold mkMVNCov
  rw [this]
  rw [h1] at *
  unfold MVN.finish; rw [if_pos h2]

theorem bMVN_decomp {c cov sd corr : PVal} {a : Dict String PVal} (h : bMVN c cov sd corr = .ok a) :
    ∃ (c' : List ℝ) (cf : Fin c'.length → ℝ) (cov' : Option (Matrix (Fin c'.length) (Fin c'.length) ℝ))
      (sd' : Option (Fin c'.length → ℝ)) (corr' : CorrArg c'.length) (d : MVN c'.length),
      vec c = .ok c' ∧ fnOf c'.length c' = .ok cf ∧ optMat c'.length cov = .ok cov' ∧ optFn c'.length sd = .ok sd' ∧
      corrArg c'.length corr = .ok corr' ∧ mkMVN cf true cov' sd' corr' = .ok d ∧ a = mvnAttrs c d := by
  unfold bMVN at h
  obtain ⟨c', h1, h⟩ := bind_eq_ok h
  obtain ⟨cf, h2, h⟩ := bind_eq_ok h
  obtain ⟨cov', h3, h⟩ := bind_eq_ok h
  obtain ⟨sd', h4, h⟩ := bind_eq_ok h
  obtain ⟨corr', h5, h⟩ := bind_eq_ok h
  obtain ⟨d, h6, h⟩ := bind_eq_ok h
  cases h
  exact ⟨c', cf, cov', sd', corr', d, h1, h2, h3, h4, h5, h6, rfl⟩

theorem mvn_reloads_of (E : Env) {c : PVal} {c' : List ℝ} {cf : Fin c'.length → ℝ} (h1 : vec c = .ok c')
    (h2 : fnOf c'.length c' = .ok cf) {d : MVN c'.length} (h : mkMVNCov cf true d.cov = .ok d) :
    Reloads E ⟨.multivariateNormal, mvnAttrs c d⟩ := by
  refine ⟨⟨.multivariateNormal, mvnAttrs (thru c) d⟩, ?_, rfl, ?_⟩
  · rw [mvn_roundTrip E c c' cf h1 h2 d, h]; rfl
  · simp only [mvnAttrs, normD, norm_thru]

/-- What must hold of the arguments of a multivariate normal distribution: a covariance, or positive standard
deviations with a number (or nothing) or a symmetric matrix with unit diagonal as correlation. (Specification.) -/
def MVNArgs (cov sd corr : PVal) : Prop :=
  cov ≠ .none ∨
  ((∃ l, vec sd = .ok l ∧ ∀ x ∈ l, 0 < x) ∧
    (corr = .none ∨ (∃ r, num corr = .ok r) ∨
      ∃ m, mat corr = .ok m ∧ (∀ i j : ℕ, (m.getD i []).getD j 0 = (m.getD j []).getD i 0) ∧
        ∀ i : ℕ, i < m.length → (m.getD i []).getD i 0 = 1))

theorem build_multivariateNormal (E : Env) {c cov sd corr : PVal} {a : Dict String PVal}
    (h : build E .multivariateNormal [c, cov, sd, corr] = .ok a) (hargs : MVNArgs cov sd corr) :
    Reloads E ⟨.multivariateNormal, a⟩ := by
  obtain ⟨c', cf, cov', sd', corr', d, h1, h2, h3, h4, h5, h6, rfl⟩ :=
    bMVN_decomp (show bMVN c cov sd corr = .ok a from h)
  apply mvn_reloads_of E h1 h2
  match cov', sd', h6, h3, h4 with
  | some m, _, h6, _, _ => exact mvn_cov_again h6
  | none, none, h6, _, _ => cases h6
  | none, some s, h6, h3, h4 =>
    have hcov : cov = .none := by
      cases cov with
      | none => rfl
      | _ =>
        exfalso
        simp only [optMat] at h3
        obtain ⟨x, _, h3⟩ := bind_eq_ok h3
        obtain ⟨y, _, h3⟩ := bind_eq_ok h3
        cases h3
    rcases hargs with hh | ⟨⟨l, hl, hpos⟩, hcorr⟩
    · exact absurd hcov hh
    have hs : ∀ i, 0 < s i := by
      have hne : sd ≠ .none := by rintro rfl; cases hl
      have : optFn c'.length sd = vec sd >>= fun l => fnOf c'.length l >>= fun f => .ok (some f) := by
        cases sd with
        | none => exact absurd rfl hne
        | _ => rfl
      rw [this, hl] at h4
      simp only [ok_bind_eq, fnOf] at h4
      split at h4
      · rename_i hlen
        simp only [ok_bind_eq, Except.ok.injEq, Option.some.injEq] at h4
        rw [← h4]
        intro i
        have hi : (i : ℕ) < l.length := by rw [hlen]; exact i.2
        have hg : l.getD i 0 = l[(i : ℕ)] := by simp [List.getD, List.getElem?_eq_getElem hi]
        show 0 < l.getD i 0
        rw [hg]
        exact hpos _ (List.getElem_mem hi)
      · cases h4
    have hm : (∀ i j, corr'.toMatrix i j = corr'.toMatrix j i) ∧ ∀ i, corr'.toMatrix i i = 1 := by
      have hnum : ∀ r : ℝ, (∀ i j, (CorrArg.number r : CorrArg c'.length).toMatrix i j = (CorrArg.number r : CorrArg c'.length).toMatrix j i) ∧
          ∀ i, (CorrArg.number r : CorrArg c'.length).toMatrix i i = 1 := by
        intro r
        constructor
        · intro i j
          simp only [CorrArg.toMatrix, Matrix.add_apply, Matrix.smul_apply, Matrix.sub_apply, Matrix.of_apply]
          rw [Matrix.one_apply, Matrix.one_apply]
          by_cases hij : i = j
          · rw [hij]
          · rw [if_neg hij, if_neg (Ne.symm hij)]
        · intro i
          simp only [CorrArg.toMatrix, Matrix.add_apply, Matrix.smul_apply, Matrix.sub_apply, Matrix.of_apply,
            Matrix.one_apply_eq, sub_self, smul_zero, add_zero]
      rcases hcorr with rfl | ⟨r, hr⟩ | ⟨m, hm, hsym, hdiag⟩
      · cases h5
        constructor
        · intro i j
          simp only [CorrArg.toMatrix, Matrix.one_apply]
          by_cases hij : i = j
          · rw [hij]
          · rw [if_neg hij, if_neg (Ne.symm hij)]
        · intro i; simp only [CorrArg.toMatrix, Matrix.one_apply_eq]
      · cases corr with
        | int k => cases h5; exact hnum _
        | float k => cases h5; exact hnum _
        | _ => cases hr
      · have hne : ∃ b l, corr = .seq b l := by
          cases corr with
          | seq b l => exact ⟨b, l, rfl⟩
          | _ => cases hm
        obtain ⟨b, l, rfl⟩ := hne
        simp only [corrArg, hm, ok_bind_eq, matOf] at h5
        split at h5
        · rename_i hlen
          simp only [ok_bind_eq, Except.ok.injEq] at h5
          rw [← h5]
          have hs2 : ∀ i j : Fin c'.length, (Matrix.of fun (i j : Fin c'.length) => (m.getD i []).getD j 0 : Matrix _ _ ℝ) i j =
              (Matrix.of fun (i j : Fin c'.length) => (m.getD i []).getD j 0 : Matrix _ _ ℝ) j i := fun i j => hsym i j
          have hid : symmetrise (Matrix.of fun (i j : Fin c'.length) => (m.getD i []).getD j 0 : Matrix _ _ ℝ) =
              Matrix.of fun (i j : Fin c'.length) => (m.getD i []).getD j 0 := by
            unfold symmetrise; rw [if_pos (allcloseT_of_symm _ hs2)]
          simp only [CorrArg.toMatrix, hid]
          refine ⟨hs2, fun i => hdiag i (by rw [hlen.1]; exact i.2)⟩
        · cases h5
    exact mvn_sd_again h6 hs hm.1 hm.2

end Verif.DistDict
