import Verif.Probability.MultivariateTheorems
import Verif.Probability.CombineTheorems
/-!
# C41, C36 (exclude), C31, C29/C32 (multivariate)
-/
set_option linter.unusedSectionVars false
set_option linter.unusedSimpArgs false
set_option linter.unusedVariables false
set_option linter.unusedDecidableInType false
namespace Verif.Probability
open Verif.Py Matrix

variable {n : ℕ}

/-! ## C41 -/

/-- Specification: `ks` lists the positions not in `exclude`, in ascending order. -/
structure Kept (n : ℕ) (exclude : List ℕ) (ks : List (Fin n)) : Prop where
  ascending : ks.Pairwise (· < ·)
  mem_iff : ∀ i : Fin n, i ∈ ks ↔ (i : ℕ) ∉ exclude

theorem kept_keptPositions (n : ℕ) (exclude : List ℕ) : Kept n exclude (keptPositions n exclude) := by
  constructor
  · exact (List.pairwise_lt_finRange n).filter _
  · intro i
    simp [keptPositions]

theorem kept_unique {exclude : List ℕ} {ks ks' : List (Fin n)} (h : Kept n exclude ks) (h' : Kept n exclude ks') :
    ks = ks' := by
  refine List.Perm.eq_of_pairwise (le := (· < ·)) (fun a b _ _ h1 h2 => absurd h1 (lt_asymm h2)) h.1 h'.1 ?_
  refine (List.perm_ext_iff_of_nodup (h.1.imp ne_of_lt) (h'.1.imp ne_of_lt)).2 fun i => ?_
  rw [h.2, h'.2]

theorem submatrix_posDef {cov : Matrix (Fin n) (Fin n) ℝ} (hp : cov.PosDef) {ks : List (Fin n)}
    (h : ks.Pairwise (· < ·)) : (cov.submatrix ks.get ks.get).PosDef := by
  refine hp.submatrix ?_
  exact List.nodup_iff_injective_get.1 (h.imp ne_of_lt)

theorem submatrix_symm {cov : Matrix (Fin n) (Fin n) ℝ} (hs : ∀ i j, cov i j = cov j i) {m : ℕ} (g : Fin m → Fin n)
    (i j : Fin m) : cov.submatrix g g i j = cov.submatrix g g j i := by
  simp only [Matrix.submatrix_apply]; exact hs _ _

theorem mkMVNCov_posDef {c : Fin n → ℝ} {arr : Bool} {cov : Matrix (Fin n) (Fin n) ℝ} (hp : cov.PosDef) :
    mkMVNCov c arr cov = .ok (mvnOfCov c arr cov) := by
  have hs := isHermitian_iff_symm.1 hp.isHermitian
  have hcov : (mvnOfCov c arr cov).cov = cov := symmetrise_symm hs
  exact (finish_ok_iff (d := mvnOfCov c arr cov) (by rw [hcov]; exact hs)).2 (by rw [hcov]; exact hp)

/-- **C41 (nothing excluded)** `reduce_dimension` with an empty `exclude` returns the distribution itself. -/
theorem C41_nothing_excluded (d : MVN n) : d.reduce [] = .ok (.multi d) := rfl

/-- **C41 (multivariate result)** For a positive definite covariance, and if at least two positions remain,
`reduce_dimension` returns the multivariate normal whose means and covariances are those of the remaining positions. -/
theorem C41_multivariate (d : MVN n) (hp : d.cov.PosDef) (exclude : List ℕ) (hne : exclude ≠ [])
    (hr : ∀ e ∈ exclude, e < n) (ks : List (Fin n)) (hk : Kept n exclude ks) (h2 : 2 ≤ ks.length) :
    ∃ d' : MVN ks.length, d.reduce exclude = .ok (.multi d') ∧ (∀ i, d'.central i = d.central (ks.get i)) ∧
      (∀ i j, d'.cov i j = d.cov (ks.get i) (ks.get j)) ∧ d'.cov.PosDef ∧
      ∀ i, d'.sd i ^ 2 = d.cov (ks.get i) (ks.get i) := by
  have hkk : keptPositions n exclude = ks := kept_unique (kept_keptPositions n exclude) hk
  have hpos := submatrix_posDef hp hk.1
  have hs := isHermitian_iff_symm.1 hp.isHermitian
  have hcov : (mvnOfCov (fun i => d.central (ks.get i)) true (d.cov.submatrix ks.get ks.get)).cov =
      d.cov.submatrix ks.get ks.get := symmetrise_symm (submatrix_symm hs _)
  refine ⟨mvnOfCov (fun i => d.central (ks.get i)) true (d.cov.submatrix ks.get ks.get), ?_, fun i => rfl,
    fun i j => ?_, ?_, fun i => ?_⟩
  · unfold MVN.reduce
    rw [if_neg hne, if_neg (by push Not; exact hr)]
    simp only [hkk]
    match ks, h2 with
    | k1 :: k2 :: r, _ => simp only [mkMVNCov_posDef hpos]; rfl
  · rw [hcov]; rfl
  · rw [hcov]; exact hpos
  · exact ((C42_from_covariance_partial _ _ _ none .none _ (mkMVNCov_posDef hpos)).2.2.2.1 i).2

/-- **C41 (univariate result)** If exactly one position `k` remains, `reduce_dimension` returns the univariate
normal distribution with mean `μ_k` and variance `Σ_kk`. -/
theorem C41_univariate (d : MVN n) (hp : d.cov.PosDef) (exclude : List ℕ) (hne : exclude ≠ [])
    (hr : ∀ e ∈ exclude, e < n) (k : Fin n) (hk : Kept n exclude [k]) :
    ∃ s, d.reduce exclude = .ok (.uni (.normal (d.central k) s)) ∧ 0 < s ∧ s ^ 2 = d.cov k k := by
  have hkk : keptPositions n exclude = [k] := kept_unique (kept_keptPositions n exclude) hk
  have hpos : 0 < d.cov k k := hp.diag_pos
  refine ⟨Real.sqrt (d.cov k k), ?_, Real.sqrt_pos.2 hpos, Real.sq_sqrt hpos.le⟩
  unfold MVN.reduce
  rw [if_neg hne, if_neg (by push Not; exact hr)]
  simp only [hkk]
  unfold mkNormal
  rw [if_neg (not_le.2 (Real.sqrt_pos.2 hpos))]
  rfl

/-- **C41 (range)** A position that does not exist raises `IndexError`. -/
theorem C41_out_of_range (d : MVN n) (exclude : List ℕ) (e : ℕ) (he : e ∈ exclude) (hr : n ≤ e) :
    d.reduce exclude = .error .indexError := by
  unfold MVN.reduce
  rw [if_neg (List.ne_nil_of_mem he), if_pos ⟨e, he, hr⟩]

/-- The reduction to a list of positions. (Specification.) -/
noncomputable def reduceTo (d : MVN n) {m : ℕ} (g : Fin m → Fin n) : Except PyErr Reduced :=
  (mkMVNCov (fun i => d.central (g i)) true (d.cov.submatrix g g)).map Reduced.multi

theorem reduceTo_congr (d : MVN n) {a b : ℕ} (h : a = b) (g : Fin a → Fin n) (g' : Fin b → Fin n)
    (hg : ∀ i, g i = g' (i.cast h)) : reduceTo d g = reduceTo d g' := by
  subst h
  have : g = g' := funext fun i => hg i
  rw [this]

/-- The body of `reduce_dimension` for a list of kept positions. (Specification.) -/
noncomputable def reduceList (d : MVN n) (ks : List (Fin n)) : Except PyErr Reduced :=
  match ks with
  | [k] => (mkNormal (d.central k) (Real.sqrt (d.cov k k))).map Reduced.uni
  | ks => reduceTo d ks.get

theorem reduce_eq_reduceList (d : MVN n) (exclude : List ℕ) (hne : exclude ≠ []) (hr : ∀ e ∈ exclude, e < n) :
    d.reduce exclude = reduceList d (keptPositions n exclude) := by
  unfold MVN.reduce reduceList
  rw [if_neg hne, if_neg (by push Not; exact hr)]
  simp only
  match keptPositions n exclude with
  | [] => rfl
  | [k] => rfl
  | k1 :: k2 :: r => rfl

/-- **C41 (composition)** Reducing twice is reducing once: if `exclude` contains `ex1` and the original positions
of the positions `ex2` of the once reduced distribution, the results are the same. -/
theorem C41_twice (d : MVN n) (hp : d.cov.PosDef) (ex1 ex2 ex : List ℕ) (hne1 : ex1 ≠ []) (hne2 : ex2 ≠ [])
    (hr1 : ∀ e ∈ ex1, e < n) (ks : List (Fin n)) (hk : Kept n ex1 ks) (h2 : 2 ≤ ks.length)
    (hr2 : ∀ e ∈ ex2, e < ks.length) (hr : ∀ e ∈ ex, e < n)
    (hex : ∀ i : Fin n, (i : ℕ) ∈ ex ↔ (i : ℕ) ∈ ex1 ∨ ∃ j : Fin ks.length, (j : ℕ) ∈ ex2 ∧ ks.get j = i)
    (d' : MVN ks.length) (h1 : d.reduce ex1 = .ok (.multi d')) :
    d'.reduce ex2 = d.reduce ex := by
  obtain ⟨d'', hd'', hc, hcov, hpd, _⟩ := C41_multivariate d hp ex1 hne1 hr1 ks hk h2
  rw [h1] at hd''
  have hdd : d' = d'' := by
    injection hd'' with hd''
    injection hd'' with _ hd''
  subst hdd
  have hnee : ex ≠ [] := by
    obtain ⟨e, he⟩ := List.exists_mem_of_ne_nil _ hne1
    have := (hex ⟨e, hr1 e he⟩).2 (Or.inl he)
    exact List.ne_nil_of_mem this
  have hkept : Kept n ex ((keptPositions ks.length ex2).map ks.get) := by
    obtain ⟨ha, hm⟩ := kept_keptPositions ks.length ex2
    constructor
    · rw [List.pairwise_map]
      refine ha.imp fun {a b} hab => ?_
      exact List.pairwise_iff_get.1 hk.1 a b hab
    · intro i
      rw [List.mem_map, hex]
      constructor
      · rintro ⟨j, hj, rfl⟩
        rw [hm] at hj
        rintro (h | ⟨j', hj', hjj⟩)
        · exact ((hk.2 _).1 (List.get_mem ks j)) h
        · have := List.nodup_iff_injective_get.1 (hk.1.imp ne_of_lt) hjj
          subst this
          exact hj hj'
      · intro h
        push Not at h
        obtain ⟨j, hj⟩ := List.mem_iff_get.1 ((hk.2 i).2 h.1)
        exact ⟨j, (hm j).2 fun hj2 => h.2 j hj2 hj, hj⟩
  rw [reduce_eq_reduceList d' ex2 hne2 hr2, reduce_eq_reduceList d ex hnee hr,
    ← kept_unique hkept (kept_keptPositions n ex)]
  have hto : ∀ l : List (Fin ks.length), reduceTo d' l.get = reduceTo d (l.map ks.get).get := by
    intro l
    have e1 : reduceTo d' l.get = reduceTo d (fun i => ks.get (l.get i)) := by
      unfold reduceTo
      congr 2
      · funext i; rw [hc]
      · ext i j; simp only [Matrix.submatrix_apply]; rw [hcov]
    rw [e1]
    exact reduceTo_congr d (List.length_map _).symm _ _ fun i => by simp
  match keptPositions ks.length ex2 with
  | [] => exact hto []
  | [k] =>
    show (mkNormal (d'.central k) (Real.sqrt (d'.cov k k))).map Reduced.uni =
      (mkNormal (d.central (ks.get k)) (Real.sqrt (d.cov (ks.get k) (ks.get k)))).map Reduced.uni
    rw [hc, hcov]
  | k1 :: k2 :: r => exact hto (k1 :: k2 :: r)

/-- Example: of three positions, excluding the middle one leaves the first and the last. -/
example : Kept 3 [1] [0, 2] :=
  ⟨by decide, by decide⟩

/-! ## C36 with `exclude` -/

/-- **C36 (exclude)** With positions excluded (at least one remaining), `delta_logpdf` vanishes at the reduced
central value and is at most 0 everywhere. -/
theorem C36_exclude (d : MVN n) (hp : d.cov.PosDef) (exclude : List ℕ) (hne : exclude ≠ [])
    (hr : ∀ e ∈ exclude, e < n) (ks : List (Fin n)) (hk : Kept n exclude ks) (h1 : ks ≠ []) :
    d.deltaLogpdfEx (ks.map d.central) exclude = .ok (.fin 0) ∧
    ∀ x : List ℝ, x.length = ks.length → ∃ r, d.deltaLogpdfEx x exclude = .ok (.fin r) ∧ r ≤ 0 := by
  have hkk : keptPositions n exclude = ks := kept_unique (kept_keptPositions n exclude) hk
  match ks, h1, hk, hkk with
  | [k], _, hk, hkk =>
    obtain ⟨s, hs, hs0, _⟩ := C41_univariate d hp exclude hne hr k hk
    have key : ∀ t : ℝ, d.deltaLogpdfEx [t] exclude = .ok ((UDist.normal (d.central k) s).deltaLogpdf t) := by
      intro t
      unfold MVN.deltaLogpdfEx MVN.logpdfEx
      rw [hs, hkk]
      rfl
    constructor
    · rw [List.map_cons, List.map_nil, key, C36_normal]
      simp
    · intro x hx
      match x, hx with
      | [t], _ =>
        refine ⟨-((t - d.central k) ^ 2 / (2 * s ^ 2)), ?_, ?_⟩
        · rw [key, C36_normal]
        · have : 0 ≤ (t - d.central k) ^ 2 / (2 * s ^ 2) := by positivity
          linarith
  | k1 :: k2 :: r, _, hk, hkk =>
    obtain ⟨d', hd', hc, _, hpd, _⟩ := C41_multivariate d hp exclude hne hr _ hk (by simp)
    have key : ∀ (x : List ℝ) (hx : x.length = (k1 :: k2 :: r).length), d.logpdfEx x exclude =
        .ok ((d'.logpdf fun i => x.get (i.cast hx.symm) : ℝ) : LogP) := by
      intro x hx
      unfold MVN.logpdfEx
      rw [hd']
      show (if h : _ then _ else _) = _
      rw [dif_pos hx]
    have hcen : (fun i : Fin (k1 :: k2 :: r).length =>
        ((k1 :: k2 :: r).map d.central).get (i.cast (List.length_map _).symm)) = d'.central := by
      funext i
      rw [hc]
      simp only [List.get_eq_getElem, Fin.val_cast, List.getElem_map]
    have key2 : ∀ (x : List ℝ) (hx : x.length = (k1 :: k2 :: r).length), d.deltaLogpdfEx x exclude =
        .ok (.fin (d'.deltaLogpdf fun i => x.get (i.cast hx.symm))) := by
      intro x hx
      unfold MVN.deltaLogpdfEx
      rw [hkk, key x hx, key _ (List.length_map _)]
      show Except.ok (FloatVal.fin (_ - _)) = _
      rw [hcen]
      rfl
    constructor
    · rw [key2 _ (List.length_map _), hcen, ((C36_multivariate d' hpd _).2.2).2 rfl]
    · intro x hx
      exact ⟨_, key2 x hx, (C36_multivariate d' hpd _).2.1⟩

/-! ## C31 -/

section
variable {Num : Type} (gaussNum : MVN n → (Fin n → ℝ) × Num → CentralMode → Except PyErr (MvDist n Num))

theorem mv_length (ds : List (MvDist n Num)) (h : ds.any MvDist.isOther = false) :
    (mvGaussiansOf ds).length + (mvNumericalsOf ds).length = ds.length := by
  induction ds with
  | nil => rfl
  | cons d r ih =>
    rw [List.any_cons, Bool.or_eq_false_iff] at h
    have := ih h.2
    cases d with
    | normal g =>
      simp only [mvGaussiansOf, mvNumericalsOf, List.filterMap_cons, List.length_cons] at this ⊢
      omega
    | numerical c m =>
      simp only [mvGaussiansOf, mvNumericalsOf, List.filterMap_cons, List.length_cons] at this ⊢
      omega
    | other c => simp [MvDist.isOther] at h

/-- **C31 (at most one numerical distribution)** The convolution of a non-empty list of multivariate
distributions with at most one numerical one returns a distribution or raises; it never returns `None`, and it does
not fail because of an unset local variable. -/
theorem C31_returns_or_raises_partial (ds : List (MvDist n Num)) (mode : CentralMode)
    (hg : ∀ d o m, gaussNum d o m ≠ .error .unboundLocalError)
    (h1 : (mvNumericalsOf ds).length ≤ 1) :
    convolveMv gaussNum ds mode ≠ .ok none ∧ convolveMv gaussNum ds mode ≠ .error .unboundLocalError := by
  match ds with
  | [] => exact ⟨by simp [convolveMv], by simp [convolveMv]⟩
  | [d] => exact ⟨by simp [convolveMv], by simp [convolveMv]⟩
  | d0 :: d1 :: r =>
    unfold convolveMv
    simp only
    split
    · simp
    split
    · simp
    rename_i hno
    have hlen := mv_length (d0 :: d1 :: r) (by simpa using hno)
    have hcg : ∀ gs : List (MVN n), convolveMvGaussians gs mode ≠ .error .unboundLocalError := by
      intro gs
      have hmk : ∀ (c : Fin n → ℝ) a v, mkMVNCov c a v ≠ .error .unboundLocalError := by
        intro c a v
        unfold mkMVNCov MVN.finish
        split <;> simp
      match gs with
      | [] => simp [convolveMvGaussians]
      | [g] => simp [convolveMvGaussians]
      | g1 :: g2 :: gr =>
        unfold convolveMvGaussians
        simp only
        cases mode with
        | same =>
          simp only
          split
          · simp
          split
          · exact hmk _ _ _
          · simp
        | sum => exact hmk _ _ _
    match hG : mvGaussiansOf (d0 :: d1 :: r), hN : mvNumericalsOf (d0 :: d1 :: r) with
    | [], [] => simp
    | [], [_] => rw [hG, hN] at hlen; simp at hlen
    | [], _ :: _ :: _ => rw [hN] at h1; simp at h1
    | g :: gs, [] =>
      simp only
      cases hc : convolveMvGaussians (g :: gs) mode with
      | error e =>
        have := hcg (g :: gs)
        rw [hc] at this
        simpa using this
      | ok v => simp
    | g :: gs, [o] =>
      simp only
      cases hc : convolveMvGaussians (g :: gs) mode with
      | error e =>
        have := hcg (g :: gs)
        rw [hc] at this
        simpa using this
      | ok v =>
        cases hgn : gaussNum v o mode with
        | error e =>
          have := hg v o mode
          rw [hgn] at this
          simpa [hgn] using this
        | ok w => simp [hgn]
    | g :: gs, _ :: _ :: _ => rw [hN] at h1; simp at h1

/-- **C31 fails**: the convolution of two numerical multivariate distributions with the same central value returns
`None` silently (the `NotImplementedError` is constructed but not raised). -/
theorem C31_two_numericals_return_none (c : Fin n → ℝ) (a b : Num) (mode : CentralMode) :
    convolveMv gaussNum [.numerical c a, .numerical c b] mode = .ok none := by
  unfold convolveMv
  simp only
  rw [if_neg, if_neg]
  · rfl
  · simp [MvDist.isOther]
  · rintro ⟨_, h⟩
    apply h
    intro p hp
    rcases List.mem_cons.1 hp with rfl | hp
    · rfl
    · rw [List.mem_singleton.1 hp]; rfl

/-- **C31 (other classes)** Any distribution that is neither normal nor numerical is rejected. -/
theorem C31_other_class_raises (ds : List (MvDist n Num)) (mode : CentralMode) (c : Fin n → ℝ) (hl : 2 ≤ ds.length)
    (h : MvDist.other c ∈ ds) : raises (convolveMv gaussNum ds mode) := by
  match ds, hl with
  | d0 :: d1 :: r, _ =>
    unfold convolveMv
    simp only
    split
    · exact ⟨_, rfl⟩
    rw [if_pos (List.any_eq_true.2 ⟨_, h, rfl⟩)]
    exact ⟨_, rfl⟩

/-- **C31 (different central values)** With `central_values='same'`, different central values raise
`AssertionError`. -/
theorem C31_different_centrals (ds : List (MvDist n Num)) (p q : MvDist n Num) (hp : p ∈ ds) (hq : q ∈ ds)
    (h : p.central ≠ q.central) : convolveMv gaussNum ds .same = .error .assertionError := by
  match ds with
  | [] => simp at hp
  | [d] => rw [List.mem_singleton.1 hp, List.mem_singleton.1 hq] at h; exact absurd rfl h
  | d0 :: d1 :: r =>
    unfold convolveMv
    simp only
    rw [if_pos ⟨trivial, fun hall => h ((hall p hp).trans (hall q hq).symm)⟩]

/-- **C31 (arrays)** Two or more multivariate normal distributions with the same central value, one of which stores
it as a numpy array: the convolution raises `ValueError` ("truth value of an array is ambiguous"). -/
theorem C31_array_central_values_raise (ds : List (MVN n)) (hl : 2 ≤ ds.length) (c : Fin n → ℝ)
    (hc : ∀ d ∈ ds, d.central = c) (ha : ∃ d ∈ ds, d.isArray = true) :
    convolveMv gaussNum (ds.map MvDist.normal) .same = .error .valueError := by
  match ds, hl with
  | d0 :: d1 :: r, _ =>
    have hg : ∀ l : List (MVN n), mvGaussiansOf (l.map (MvDist.normal (Num := Num))) = l := by
      intro l; induction l with
      | nil => rfl
      | cons d l ih => simp only [mvGaussiansOf, List.map_cons, List.filterMap_cons] at ih ⊢; rw [ih]
    have hn : ∀ l : List (MVN n), mvNumericalsOf (l.map (MvDist.normal (Num := Num))) = [] := by
      intro l; induction l with
      | nil => rfl
      | cons d l ih => simp only [mvNumericalsOf, List.map_cons, List.filterMap_cons] at ih ⊢; rw [ih]
    have hno : ∀ l : List (MVN n), (l.map (MvDist.normal (Num := Num))).any MvDist.isOther = false := by
      intro l; rw [List.any_eq_false]; simp [MvDist.isOther]
    have h1 := hg (d0 :: d1 :: r)
    have h2 := hn (d0 :: d1 :: r)
    have h3 := hno (d0 :: d1 :: r)
    simp only [List.map_cons] at h1 h2 h3 ⊢
    unfold convolveMv
    simp only
    rw [if_neg, h3, if_neg (by simp), h1, h2]
    · simp only
      unfold convolveMvGaussians
      simp only
      rw [if_pos ha]
      rfl
    · rintro ⟨_, hh⟩
      apply hh
      intro p hp
      have : p ∈ (d0 :: d1 :: r).map (MvDist.normal (Num := Num)) := hp
      obtain ⟨q, hq, rfl⟩ := List.mem_map.1 this
      show q.central = d0.central
      rw [hc q hq, hc d0 (by simp)]
end

/-! ## C29 (multivariate) -/

theorem sum_posDef {ms : List (Matrix (Fin n) (Fin n) ℝ)} (hne : ms ≠ []) (hp : ∀ m ∈ ms, m.PosDef) :
    ms.sum.PosDef := by
  induction ms with
  | nil => exact absurd rfl hne
  | cons m r ih =>
    rw [List.sum_cons]
    by_cases hr : r = []
    · subst hr; simpa using hp m (by simp)
    · exact (hp m (by simp)).add (ih hr fun x hx => hp x (by simp [hx]))

/-- **C29 (multivariate, 'same')** Multivariate normals with the same central value, stored as lists: the
convolution has that central value and the sum of the covariances. -/
theorem C29_multivariate_same (ds : List (MVN n)) (hne : ds ≠ []) (c : Fin n → ℝ) (hc : ∀ d ∈ ds, d.central = c)
    (hp : ∀ d ∈ ds, d.cov.PosDef) (ha : ∀ d ∈ ds, d.isArray = false) :
    ∃ d, convolveMvGaussians ds .same = .ok d ∧ d.central = c ∧ d.cov = (ds.map (·.cov)).sum := by
  match ds, hne with
  | [d], _ => exact ⟨d, rfl, hc d (by simp), by simp⟩
  | d0 :: d1 :: r, _ =>
    have hpos : ((d0 :: d1 :: r).map MVN.cov).sum.PosDef := sum_posDef (by simp) fun m hm => by
      obtain ⟨d, hd, rfl⟩ := List.mem_map.1 hm
      exact hp d hd
    refine ⟨mvnOfCov d0.central d0.isArray ((d0 :: d1 :: r).map MVN.cov).sum, ?_, hc d0 (by simp),
      symmetrise_symm (isHermitian_iff_symm.1 hpos.isHermitian)⟩
    unfold convolveMvGaussians
    simp only
    rw [if_neg, if_pos]
    · exact mkMVNCov_posDef hpos
    · intro d hd; rw [hc d hd, hc d0 (by simp)]
    · rintro ⟨d, hd, hda⟩
      rw [ha d hd] at hda
      cases hda

/-- **C29 (multivariate, 'sum')** The central values and the covariances add up. -/
theorem C29_multivariate_sum (ds : List (MVN n)) (hne : ds ≠ []) (hp : ∀ d ∈ ds, d.cov.PosDef) :
    ∃ d, convolveMvGaussians ds .sum = .ok d ∧ d.central = (ds.map (·.central)).sum ∧
      d.cov = (ds.map (·.cov)).sum := by
  match ds, hne with
  | [d], _ => exact ⟨d, rfl, by simp, by simp⟩
  | d0 :: d1 :: r, _ =>
    have hpos : ((d0 :: d1 :: r).map MVN.cov).sum.PosDef := sum_posDef (by simp) fun m hm => by
      obtain ⟨d, hd, rfl⟩ := List.mem_map.1 hm
      exact hp d hd
    exact ⟨mvnOfCov ((d0 :: d1 :: r).map MVN.central).sum true ((d0 :: d1 :: r).map MVN.cov).sum,
      mkMVNCov_posDef hpos, rfl, symmetrise_symm (isHermitian_iff_symm.1 hpos.isHermitian)⟩

/-! ## C32 (multivariate) -/

theorem quad_expand {W : Matrix (Fin n) (Fin n) ℝ} (hs : Wᵀ = W) (x c : Fin n → ℝ) :
    (x - c) ⬝ᵥ (W *ᵥ (x - c)) = x ⬝ᵥ (W *ᵥ x) - 2 * (x ⬝ᵥ (W *ᵥ c)) + c ⬝ᵥ (W *ᵥ c) := by
  have : c ⬝ᵥ (W *ᵥ x) = x ⬝ᵥ (W *ᵥ c) := by
    rw [Matrix.dotProduct_mulVec, ← Matrix.mulVec_transpose, hs, dotProduct_comm]
  simp only [Matrix.mulVec_sub, sub_dotProduct, dotProduct_sub]
  rw [this]
  ring

/-- **C32 (multivariate)** The combination of multivariate normal distributions exists, and its log-PDF is the sum
of the individual log-PDFs up to a constant. -/
theorem C32_multivariate_product (ds : List (MVN n)) (hne : ds ≠ []) (hp : ∀ d ∈ ds, d.cov.PosDef) :
    ∃ d, combineMvNormals ds = .ok d ∧ d.cov.PosDef ∧ d.cov⁻¹ = (ds.map fun e => e.cov⁻¹).sum ∧
      ∃ k : ℝ, ∀ x, d.logpdf x = (ds.map fun e => e.logpdf x).sum + k := by
  have aux : ∀ ds : List (MVN n), ds ≠ [] → (∀ d ∈ ds, d.cov.PosDef) →
      ∃ d, combineMvGaussians ds = .ok d ∧ d.cov.PosDef ∧ d.cov⁻¹ = (ds.map fun e => e.cov⁻¹).sum ∧
      ∃ k : ℝ, ∀ x, d.logpdf x = (ds.map fun e => e.logpdf x).sum + k := by
    intro ds hne hp
    have hW : ((ds.map fun e : MVN n => e.cov⁻¹).sum).PosDef := sum_posDef (by simpa using hne) fun m hm => by
      obtain ⟨d, hd, rfl⟩ := List.mem_map.1 hm
      exact (hp d hd).inv
    obtain ⟨W, hWd⟩ : ∃ W, W = (ds.map fun e => e.cov⁻¹).sum := ⟨_, rfl⟩
    rw [← hWd] at hW
    have hdet : IsUnit W.det := (Matrix.isUnit_iff_isUnit_det _).1 hW.isUnit
    obtain ⟨b, hb⟩ : ∃ b, b = (ds.map fun e => e.cov⁻¹ *ᵥ e.central).sum := ⟨_, rfl⟩
    have hcov : (mvnOfCov (W⁻¹ *ᵥ b) true W⁻¹).cov = W⁻¹ :=
      symmetrise_symm (isHermitian_iff_symm.1 hW.inv.isHermitian)
    refine ⟨mvnOfCov (W⁻¹ *ᵥ b) true W⁻¹, ?_, by rw [hcov]; exact hW.inv,
      by rw [hcov, Matrix.nonsing_inv_nonsing_inv _ hdet, hWd], ?_⟩
    · unfold combineMvGaussians
      simp only
      rw [← hWd, ← hb]
      exact mkMVNCov_posDef hW.inv
    · -- both sides are -½ xᵀWx + xᵀb + const
      have hsum : ∀ l : List (MVN n), (∀ d ∈ l, d.cov.PosDef) → ∃ k : ℝ, ∀ x,
          (l.map fun e => e.logpdf x).sum = -(1 / 2) * (x ⬝ᵥ ((l.map fun e => e.cov⁻¹).sum *ᵥ x)) +
            x ⬝ᵥ (l.map fun e => e.cov⁻¹ *ᵥ e.central).sum + k := by
        intro l hl
        induction l with
        | nil => exact ⟨0, fun x => by simp⟩
        | cons e r ih =>
          obtain ⟨k, hk⟩ := ih fun d hd => hl d (by simp [hd])
          have he := hl e (by simp)
          have het : (e.cov⁻¹)ᵀ = e.cov⁻¹ := by
            ext i j
            exact isHermitian_iff_symm.1 he.inv.isHermitian j i
          refine ⟨k - 1 / 2 * (n * Real.log (2 * Real.pi) + Real.log e.cov.det +
            e.central ⬝ᵥ (e.cov⁻¹ *ᵥ e.central)), fun x => ?_⟩
          rw [List.map_cons, List.map_cons, List.map_cons, List.sum_cons, List.sum_cons, List.sum_cons, hk x,
            C74_logpdf e he, quad_expand het, Matrix.add_mulVec, dotProduct_add, dotProduct_add]
          ring
      obtain ⟨k, hk⟩ := hsum ds hp
      have hWt : Wᵀ = W := by
        ext i j
        exact isHermitian_iff_symm.1 hW.isHermitian j i
      refine ⟨-(1 / 2) * (n * Real.log (2 * Real.pi) + Real.log W⁻¹.det +
        (W⁻¹ *ᵥ b) ⬝ᵥ (W *ᵥ (W⁻¹ *ᵥ b))) - k, fun x => ?_⟩
      rw [C74_logpdf _ (by rw [hcov]; exact hW.inv), hcov, Matrix.nonsing_inv_nonsing_inv _ hdet, hk x, ← hWd, ← hb]
      show -(1 / 2) * (_ + _ + (x - W⁻¹ *ᵥ b) ⬝ᵥ (W *ᵥ (x - W⁻¹ *ᵥ b))) = _
      rw [quad_expand hWt]
      have : W *ᵥ (W⁻¹ *ᵥ b) = b := by
        rw [Matrix.mulVec_mulVec, Matrix.mul_nonsing_inv _ hdet, Matrix.one_mulVec]
      rw [this]
      ring
  match ds, hne with
  | [d], _ => exact ⟨d, rfl, hp d (by simp), by simp, 0, fun x => by simp⟩
  | d0 :: d1 :: r, _ => exact aux _ (by simp) hp

/-- **C32 (multivariate, order)** The combination of at least two distributions does not depend on their order. -/
theorem C32_multivariate_order (ds ds' : List (MVN n)) (h : ds.Perm ds') :
    combineMvNormals ds = combineMvNormals ds' := by
  have hg : combineMvGaussians ds = combineMvGaussians ds' := by
    unfold combineMvGaussians
    simp only
    rw [(h.map fun d => d.cov⁻¹).sum_eq, (h.map fun d => d.cov⁻¹ *ᵥ d.central).sum_eq]
  match ds, ds', h, hg with
  | [], ds', h, _ => rw [h.nil_eq]
  | [d], ds', h, _ => rw [List.singleton_perm.1 h]
  | a :: b :: r, [], h, _ => exact absurd h.length_eq (by simp)
  | a :: b :: r, [x], h, _ => exact absurd h.length_eq (by simp)
  | a :: b :: r, x :: y :: s, _, hg => exact hg

/-- Positive definite distributions exist in every dimension. -/
example (c : Fin n → ℝ) : (mvnOfCov c false 1).cov.PosDef ∧ (mvnOfCov c false 1).isArray = false := by
  refine ⟨?_, rfl⟩
  rw [show (mvnOfCov c false 1).cov = 1 from symmetrise_symm fun i j => by
    rw [Matrix.one_apply, Matrix.one_apply]; simp [eq_comm]]
  exact Matrix.PosDef.one

end Verif.Probability
