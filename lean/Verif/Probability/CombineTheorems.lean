import Verif.Probability.Combine
import Verif.Probability.NumericalTheorems
import Verif.Probability.Constructors
/-!
# C29, C30, C32, C33, C73: combining univariate distributions
-/
set_option linter.unusedSectionVars false
set_option linter.unusedSimpArgs false
set_option linter.unusedVariables false
namespace Verif.Probability
open Verif.Py

/-- The normal distributions with the given (central value, standard deviation) pairs. (Specification.) -/
def normals (gs : List (ℝ × ℝ)) : List UDist := gs.map fun g => .normal g.1 g.2
/-- Constructible normal distributions: positive standard deviations. (Specification.) -/
def Pos (gs : List (ℝ × ℝ)) : Prop := ∀ g ∈ gs, 0 < g.2

/-! ## Lemmas -/

@[simp] theorem deltasOf_normals (gs : List (ℝ × ℝ)) : deltasOf (normals gs) = [] := by
  induction gs with
  | nil => rfl
  | cons g gs ih => exact ih
@[simp] theorem othersOf_normals (gs : List (ℝ × ℝ)) : othersOf (normals gs) = [] := by
  induction gs with
  | nil => rfl
  | cons g gs ih => exact ih
@[simp] theorem gaussiansOf_normals (gs : List (ℝ × ℝ)) : gaussiansOf (normals gs) = gs := by
  induction gs with
  | nil => rfl
  | cons g gs ih => exact congrArg (g :: ·) ih

theorem sum_sq_pos {gs : List (ℝ × ℝ)} (hp : Pos gs) (hn : gs ≠ []) : 0 < (gs.map fun g => g.2 ^ 2).sum := by
  refine sum_pos' (fun v hv => ?_) ?_
  · obtain ⟨g, hg, rfl⟩ := List.mem_map.1 hv; positivity
  · cases gs with
    | nil => exact absurd rfl hn
    | cons g r => exact ⟨g.2 ^ 2, by simp, pow_pos (hp g (by simp)) 2⟩

theorem sum_w_pos {gs : List (ℝ × ℝ)} (hp : Pos gs) (hn : gs ≠ []) : 0 < (gs.map fun g => 1 / g.2 ^ 2).sum := by
  refine sum_pos' (fun v hv => ?_) ?_
  · obtain ⟨g, hg, rfl⟩ := List.mem_map.1 hv; positivity
  · cases gs with
    | nil => exact absurd rfl hn
    | cons g r => exact ⟨1 / g.2 ^ 2, by simp, one_div_pos.2 (pow_pos (hp g (by simp)) 2)⟩

theorem mkNormal_ok {c s : ℝ} (h : 0 < s) : mkNormal c s = .ok (.normal c s) := if_neg (not_le.2 h)

theorem convolve_normals_two {g h : ℝ × ℝ} {r : List (ℝ × ℝ)} (mode : CentralMode) :
    convolve (normals (g :: h :: r)) mode =
      if mode = .same ∧ ¬ ∀ p ∈ g :: h :: r, p.1 = g.1 then .error .assertionError
      else convolveGaussians (g :: h :: r) mode := by
  have e1 : (∀ p ∈ normals (g :: h :: r), p.central = g.1) ↔ ∀ p ∈ g :: h :: r, p.1 = g.1 := by
    unfold normals
    simp only [List.forall_mem_map, UDist.central]
  have ed := deltasOf_normals (g :: h :: r)
  have eo := othersOf_normals (g :: h :: r)
  have eg := gaussiansOf_normals (g :: h :: r)
  show (if mode = .same ∧ ¬ ∀ p ∈ normals (g :: h :: r), p.central = g.1 then _ else _) = _
  simp only [e1]
  by_cases hc : mode = .same ∧ ¬ ∀ p ∈ g :: h :: r, p.1 = g.1
  · rw [if_pos hc, if_pos hc]
  · rw [if_neg hc, if_neg hc]
    change (if mode = .sum ∧ deltasOf (normals (g :: h :: r)) ≠ [] then _ else
      match othersOf (normals (g :: h :: r)), gaussiansOf (normals (g :: h :: r)) with
      | [], [] => _ | [], gs => _ | os, [] => _ | os, gs => _) = _
    simp only [ed, eo, eg]
    simp

/-! ## C29 -/

/-- **C29 (same)** Any number of normal distributions with common central value `c` convolve to the normal
distribution with central value `c` whose variance is the sum of the variances. -/
theorem C29_same (c : ℝ) (gs : List (ℝ × ℝ)) (hn : gs ≠ []) (hp : Pos gs) (hc : ∀ g ∈ gs, g.1 = c) :
    ∃ s, 0 < s ∧ s ^ 2 = (gs.map fun g => g.2 ^ 2).sum ∧
      convolve (normals gs) .same = .ok (.normal c s) := by
  refine ⟨Real.sqrt (gs.map fun g => g.2 ^ 2).sum, Real.sqrt_pos.2 (sum_sq_pos hp hn),
    Real.sq_sqrt (sum_sq_pos hp hn).le, ?_⟩
  match gs, hn, hp, hc with
  | [g], _, hp, hc =>
    show Except.ok (UDist.normal g.1 g.2) = _
    rw [hc g (by simp)]
    simp only [List.map_cons, List.map_nil, List.sum_cons, List.sum_nil, add_zero]
    rw [Real.sqrt_sq (hp g (by simp)).le]
  | g :: h :: r, hn, hp, hc =>
    have hg := hc g (by simp)
    rw [convolve_normals_two, if_neg (by rintro ⟨_, h2⟩; exact h2 fun p hp => by rw [hc p hp, hg])]
    show (commonCentral .same ((g :: h :: r).map (·.1)) >>= fun cv => mkNormal cv _) = _
    have hcc : commonCentral .same ((g :: h :: r).map (·.1)) = .ok c := by
      simp only [List.map_cons, commonCentral]
      rw [if_pos, hg]
      intro c' hc'
      rw [← List.map_cons (f := Prod.fst)] at hc'
      obtain ⟨p, hp, rfl⟩ := List.mem_map.1 hc'
      rw [hc p (List.mem_cons_of_mem _ hp), hg]
    rw [hcc]
    exact mkNormal_ok (Real.sqrt_pos.2 (sum_sq_pos hp hn))

/-- **C29 (sum)** With `central_values='sum'` the central value is the sum of the central values. -/
theorem C29_sum (gs : List (ℝ × ℝ)) (hn : gs ≠ []) (hp : Pos gs) :
    ∃ s, 0 < s ∧ s ^ 2 = (gs.map fun g => g.2 ^ 2).sum ∧
      convolve (normals gs) .sum = .ok (.normal (gs.map (·.1)).sum s) := by
  refine ⟨Real.sqrt (gs.map fun g => g.2 ^ 2).sum, Real.sqrt_pos.2 (sum_sq_pos hp hn),
    Real.sq_sqrt (sum_sq_pos hp hn).le, ?_⟩
  match gs, hn, hp with
  | [g], _, hp =>
    show Except.ok (UDist.normal g.1 g.2) = _
    simp only [List.map_cons, List.map_nil, List.sum_cons, List.sum_nil, add_zero]
    rw [Real.sqrt_sq (hp g (by simp)).le]
  | g :: h :: r, hn, hp =>
    rw [convolve_normals_two, if_neg (by rintro ⟨h1, _⟩; cases h1)]
    exact mkNormal_ok (Real.sqrt_pos.2 (sum_sq_pos hp hn))

/-- **C29 (different central values)** In the mode `same` different central values are rejected. -/
theorem C29_different_centrals (gs : List (ℝ × ℝ)) (g h : ℝ × ℝ) (hg : g ∈ gs) (hh : h ∈ gs) (hne : g.1 ≠ h.1) :
    convolve (normals gs) .same = .error .assertionError := by
  match gs, hg, hh with
  | [a], hg, hh =>
    rw [List.mem_singleton] at hg hh
    subst hg; subst hh; exact absurd rfl hne
  | a :: b :: r, hg, hh =>
    rw [convolve_normals_two, if_pos]
    refine ⟨rfl, fun hall => hne ?_⟩
    rw [hall g hg, hall h hh]

/-- **C29 (order)** The convolution of normal distributions does not depend on their order. -/
theorem C29_order (gs gs' : List (ℝ × ℝ)) (h : gs.Perm gs') (hp : Pos gs) (mode : CentralMode) :
    convolve (normals gs) mode = convolve (normals gs') mode := by
  by_cases hn : gs = []
  · subst hn; rw [List.nil_perm.1 h]
  have hn' : gs' ≠ [] := by rintro rfl; exact hn (List.perm_nil.1 h)
  have hp' : Pos gs' := fun g hg => hp g (h.symm.subset hg)
  have hsum : ∀ f : ℝ × ℝ → ℝ, (gs.map f).sum = (gs'.map f).sum := fun f => (h.map f).sum_eq
  cases mode with
  | sum =>
    obtain ⟨s, hs, h1, h2⟩ := C29_sum gs hn hp
    obtain ⟨s', hs', h1', h2'⟩ := C29_sum gs' hn' hp'
    have : s = s' := by
      rw [← Real.sqrt_sq hs.le, ← Real.sqrt_sq hs'.le, h1, h1', hsum]
    rw [h2, h2', this, hsum]
  | same =>
    by_cases hc : ∃ g ∈ gs, ∃ g' ∈ gs, g.1 ≠ g'.1
    · obtain ⟨g, hg, g', hg', hne⟩ := hc
      rw [C29_different_centrals gs g g' hg hg' hne,
        C29_different_centrals gs' g g' (h.subset hg) (h.subset hg') hne]
    · have hc' : ∀ g ∈ gs, ∀ g' ∈ gs, g.1 = g'.1 := by
        intro g hg g' hg'
        by_contra hne
        exact hc ⟨g, hg, g', hg', hne⟩
      obtain ⟨g0, hg0⟩ := List.exists_mem_of_ne_nil gs hn
      obtain ⟨s, hs, h1, h2⟩ := C29_same g0.1 gs hn hp fun g hg => hc' g hg g0 hg0
      obtain ⟨s', hs', h1', h2'⟩ := C29_same g0.1 gs' hn' hp' fun g hg => hc' g (h.symm.subset hg) g0 hg0
      have : s = s' := by
        rw [← Real.sqrt_sq hs.le, ← Real.sqrt_sq hs'.le, h1, h1', hsum]
      rw [h2, h2', this]

/-! ## C30 -/

/-- The distributions in the list that are not delta distributions. (Specification.) -/
def nonDelta (ds : List UDist) : List UDist := ds.filter fun | .delta _ => false | _ => true

theorem othersOf_nonDelta (ds : List UDist) : othersOf (nonDelta ds) = othersOf ds := by
  unfold othersOf nonDelta
  rw [List.filter_filter]
  refine List.filter_congr fun d _ => ?_
  cases d <;> rfl

theorem gaussiansOf_nonDelta (ds : List UDist) : gaussiansOf (nonDelta ds) = gaussiansOf ds := by
  induction ds with
  | nil => rfl
  | cons d ds ih =>
    cases d <;> first | exact ih | exact congrArg (_ :: ·) ih

theorem deltasOf_nonDelta (ds : List UDist) : deltasOf (nonDelta ds) = [] := by
  induction ds with
  | nil => rfl
  | cons d ds ih => cases d <;> exact ih

/-- What the body of the function computes once the central values agree. (Specification.) -/
noncomputable def sameBody (os : List UDist) (gs : List (ℝ × ℝ)) (dl : List ℝ) : Except PyErr UDist :=
  match os, gs with
  | [], [] =>
    match dl with
    | c :: _ => .ok (.delta c)
    | [] => .error .indexError
  | [], gs => convolveGaussians gs .same
  | os, [] => do
    let nums ← os.mapM fromPd
    let n ← convolveNumerical nums .same
    .ok (.num n)
  | os, gs => do
    let g ← convolveGaussians gs .same
    let nums ← (os ++ [g]).mapM fromPd
    let n ← convolveNumerical nums .same
    .ok (.num n)

theorem convolve_same_two {d0 d1 : UDist} {r : List UDist} (c : ℝ)
    (hc : ∀ p ∈ d0 :: d1 :: r, p.central = c) :
    convolve (d0 :: d1 :: r) .same =
      sameBody (othersOf (d0 :: d1 :: r)) (gaussiansOf (d0 :: d1 :: r)) (deltasOf (d0 :: d1 :: r)) := by
  have h0 := hc d0 (by simp)
  have hall : ∀ p ∈ d0 :: d1 :: r, p.central = d0.central := fun p hp => by rw [hc p hp, h0]
  unfold convolve
  simp only
  rw [if_neg (by rintro ⟨_, h⟩; exact h hall), if_neg (by rintro ⟨h, _⟩; cases h)]
  unfold sameBody
  rfl

theorem sameBody_dl {os gs dl dl'} (h : os ≠ [] ∨ gs ≠ []) : sameBody os gs dl = sameBody os gs dl' := by
  unfold sameBody
  cases os with
  | nil => cases gs with
    | nil => simp at h
    | cons => rfl
  | cons => cases gs <;> rfl

theorem nonDelta_cases {d0 d1 : UDist} {r : List UDist} {ds : List UDist} (h : nonDelta ds = d0 :: d1 :: r) :
    othersOf ds ≠ [] ∨ gaussiansOf ds ≠ [] := by
  rw [← othersOf_nonDelta, ← gaussiansOf_nonDelta, h]
  have h0 : d0 ∈ nonDelta ds := by rw [h]; simp
  have h0' : (fun | .delta _ => false | _ => true : UDist → Bool) d0 = true := (List.mem_filter.1 h0).2
  cases d0 with
  | delta c => cases h0'
  | normal c s => right; simp [gaussiansOf]
  | _ => left; simp [othersOf]

/-- **C30 (neutral)** If at least two distributions are not delta distributions, dropping the delta
distributions does not change the result. -/
theorem C30_deltas_neutral (c : ℝ) (ds : List UDist) (hc : ∀ p ∈ ds, p.central = c)
    (h2 : 2 ≤ (nonDelta ds).length) : convolve ds .same = convolve (nonDelta ds) .same := by
  match hds : ds with
  | [] => simp [nonDelta] at h2
  | [d] => simp only [nonDelta, List.filter_cons, List.filter_nil] at h2; split at h2 <;> simp at h2
  | d0 :: d1 :: r =>
    rw [← hds] at h2 hc ⊢
    match hnd : nonDelta ds with
    | [] => rw [hnd] at h2; simp at h2
    | [d] => rw [hnd] at h2; simp at h2
    | e0 :: e1 :: s =>
      have hce : ∀ p ∈ e0 :: e1 :: s, p.central = c := fun p hp => by
        rw [← hnd] at hp
        exact hc p (List.mem_filter.1 hp).1
      rw [convolve_same_two c hce, ← hnd, othersOf_nonDelta, gaussiansOf_nonDelta, hds,
        convolve_same_two c (by rw [← hds]; exact hc), ← hds]
      exact sameBody_dl (nonDelta_cases hnd)

/-- **C30 (one normal)** Delta distributions and one normal distribution: the normal distribution. -/
theorem C30_single_normal (c s : ℝ) (ds : List UDist) (hc : ∀ p ∈ ds, p.central = c)
    (h : nonDelta ds = [.normal c s]) : convolve ds .same = .ok (.normal c s) := by
  match hds : ds with
  | [] => simp [nonDelta] at h
  | [d] =>
    have : d = .normal c s := by
      cases d <;> simp_all [nonDelta]
    rw [this]; rfl
  | d0 :: d1 :: r =>
    rw [convolve_same_two c hc, ← othersOf_nonDelta, ← gaussiansOf_nonDelta, h]
    rfl

/-- **C30 (one other distribution)** Delta distributions and a single distribution of another class: the
result is its numerical tabulation (`from_pd`), not the distribution itself. -/
theorem C30_single_other_partial (c : ℝ) (d : UDist) (ds : List UDist) (hc : ∀ p ∈ ds, p.central = c)
    (hl : 2 ≤ ds.length) (hd : ∀ c s, d ≠ .normal c s) (h : nonDelta ds = [d]) :
    convolve ds .same = (fromPd d).map UDist.num := by
  match hds : ds with
  | [] => simp at hl
  | [_] => simp at hl
  | d0 :: d1 :: r =>
    have h0 : d ∈ nonDelta (d0 :: d1 :: r) := by rw [h]; simp
    have h0' : (fun | .delta _ => false | _ => true : UDist → Bool) d = true := (List.mem_filter.1 h0).2
    rw [convolve_same_two c hc, ← othersOf_nonDelta, ← gaussiansOf_nonDelta, h]
    have ho : othersOf [d] = [d] ∧ gaussiansOf [d] = [] := by
      cases d with
      | delta c => cases h0'
      | normal c s => exact absurd rfl (hd c s)
      | _ => exact ⟨rfl, rfl⟩
    rw [ho.1, ho.2]
    show ([d].mapM fromPd >>= fun nums => convolveNumerical nums .same >>= fun n => Except.ok (UDist.num n)) = _
    cases hf : fromPd d with
    | error e => simp [List.mapM_cons, hf]; rfl
    | ok n => simp [List.mapM_cons, hf]; rfl

/-- **C30 (only deltas)** Only delta distributions: a delta distribution with the common central value. -/
theorem C30_only_deltas (c : ℝ) (ds : List UDist) (hn : ds ≠ []) (hd : ∀ p ∈ ds, p = .delta c) :
    convolve ds .same = .ok (.delta c) := by
  match ds, hn with
  | [d], _ => rw [hd d (by simp)]; rfl
  | d0 :: d1 :: r, _ =>
    have hc : ∀ p ∈ d0 :: d1 :: r, p.central = c := fun p hp => by rw [hd p hp]; rfl
    have hno : nonDelta (d0 :: d1 :: r) = [] := by
      unfold nonDelta
      rw [List.filter_eq_nil_iff]
      intro p hp
      rw [hd p hp]; simp
    rw [convolve_same_two c hc, ← othersOf_nonDelta, ← gaussiansOf_nonDelta, hno, hd d0 (by simp)]
    rfl

/-- **C30 fails for the class of the result**: a delta distribution together with a uniform one gives a
numerical distribution, while the uniform one alone is returned as it is. -/
theorem C30_uniform_becomes_numerical (c h : ℝ) :
    convolve [.uniform c h] .same = .ok (.uniform c h) ∧
    ∀ d, convolve [.delta c, .uniform c h] .same ≠ .ok (.uniform d h) := by
  refine ⟨rfl, fun d hd => ?_⟩
  rw [C30_single_other_partial c (.uniform c h) [.delta c, .uniform c h]
    (by intro p hp; rcases List.mem_cons.1 hp with rfl | hp
        · rfl
        · rw [List.mem_singleton.1 hp]; rfl)
    (by simp) (by intro c s h; cases h) rfl] at hd
  cases hf : fromPd (.uniform c h) with
  | error e => rw [hf] at hd; cases hd
  | ok n => rw [hf] at hd; cases hd

/-- **C30 (sum)** With `central_values='sum'` any delta distribution among at least two is rejected. -/
theorem C30_sum_with_delta (ds : List UDist) (c : ℝ) (hl : 2 ≤ ds.length) (hd : UDist.delta c ∈ ds) :
    convolve ds .sum = .error .notImplementedError := by
  match ds with
  | [] => simp at hl
  | [_] => simp at hl
  | d0 :: d1 :: r =>
    unfold convolve
    simp only
    rw [if_neg (by rintro ⟨h, _⟩; cases h), if_pos]
    refine ⟨trivial, ?_⟩
    have : c ∈ deltasOf (d0 :: d1 :: r) := List.mem_filterMap.2 ⟨_, hd, rfl⟩
    exact List.ne_nil_of_mem this

/-! ## C73: numerical convolution -/

theorem linspace_head (a b : ℝ) (n : Nat) : (linspace a b (n + 2)).head? = some a := by
  unfold linspace
  rw [List.range_succ_eq_map, List.map_cons, List.head?_cons]
  simp

theorem linspace_last (a b : ℝ) (n : Nat) : (linspace a b (n + 2)).getLast? = some b := by
  unfold linspace
  rw [List.range_succ]
  simp only [List.map_append, List.map_cons, List.map_nil, List.getLast?_append, List.getLast?_singleton,
    Option.some_or]
  congr 1
  push_cast
  have : (n : ℝ) + 1 ≠ 0 := by positivity
  rw [show (n : ℝ) + 2 - 1 = n + 1 by ring, mul_div_cancel₀ _ this]
  ring

theorem commonCentral_same {cs : List ℝ} {c : ℝ} (h : commonCentral .same cs = .ok c) :
    ∀ c' ∈ cs, c' = c := by
  cases cs with
  | nil => simp
  | cons c0 r =>
    change (if ∀ c' ∈ r, c' = c0 then Except.ok c0 else Except.error PyErr.assertionError) = _ at h
    split at h
    · rename_i hall
      injection h with h
      subst h
      intro c' hc'
      rcases List.mem_cons.1 hc' with rfl | hc'
      · rfl
      · exact hall _ hc'
    · cases h

/-- **C73** If a convolution of (at least two) numerical distributions returns a distribution, its central
value is the common central value (or the sum), and its support extends to the left and right of it by
the sum of the individual extensions. -/
theorem C73_numerical_support (ds : List (Num ℝ)) (mode : CentralMode) (n : Num ℝ) (hl : 2 ≤ ds.length)
    (h : convolveNumerical ds mode = .ok n) :
    (mode = .sum → n.central = (ds.map (·.central)).sum) ∧
    (mode = .same → ∀ d ∈ ds, n.central = d.central) ∧
    n.central - n.support.1 = (ds.map fun d => d.central - d.support.1).sum ∧
    n.support.2 - n.central = (ds.map fun d => d.support.2 - d.central).sum := by
  have h' : (commonCentral mode (ds.map fun d => d.central) >>= fun cv => convNumCore 10000 cv ds) = .ok n := by
    match ds, hl with
    | d :: e :: r, _ => exact h
  obtain ⟨cv, hcv, h'⟩ := bind_eq_ok h'
  obtain ⟨m, hm⟩ : ∃ m, 10000 = m + 2 := ⟨9998, rfl⟩
  rw [hm] at h'
  clear hm
  unfold convNumCore at h'
  simp only at h'
  obtain ⟨_, _, _, _, ⟨x0, xr, hx, hsupp⟩, _⟩ := mk'_ok h'
  have hcen : n.central = cv := by
    unfold Num.mk' at h'
    obtain ⟨c, hc, h'⟩ := bind_eq_ok h'
    simp only [hx, chooseCentral] at hc
    split at hc
    · injection hc with hc
      subst hc
      unfold finishNum at h'
      simp only [hx] at h'
      split at h'
      · cases h'
      · injection h' with h'; rw [← h']
    · cases hc
  have hhead := linspace_head (convSupport cv ds).1 (convSupport cv ds).2 m
  have hlast := linspace_last (convSupport cv ds).1 (convSupport cv ds).2 m
  rw [hx] at hhead hlast
  simp only [List.head?_cons, Option.some.injEq] at hhead
  rw [List.getLast?_eq_some_getLast (by simp), Option.some.injEq] at hlast
  refine ⟨?_, ?_, ?_, ?_⟩
  · intro hm
    subst hm
    simp only [commonCentral, Except.ok.injEq] at hcv
    rw [hcen, hcv]
  · intro hm d hd
    subst hm
    rw [hcen]
    exact (commonCentral_same hcv _ (List.mem_map.2 ⟨d, hd, rfl⟩)).symm
  · rw [hsupp, hcen, hhead]
    simp only [convSupport, sub_sub_cancel]
    congr 1
    refine List.map_congr_left fun d _ => ?_
    ring
  · rw [hsupp, hcen]
    simp only [hlast, convSupport]
    have : ∀ l : List (Num ℝ), cv - (l.map fun d => cv - (d.support.2 + (cv - d.central))).sum - cv =
        (l.map fun d => d.support.2 - d.central).sum := by
      intro l
      induction l with
      | nil => simp
      | cons d l ih => simp only [List.map_cons, List.sum_cons]; linarith
    exact this ds

/-! ## C32 -/

theorem combine_normals_two {g h : ℝ × ℝ} {r : List (ℝ × ℝ)} :
    combine (normals (g :: h :: r)) = combineGaussians (g :: h :: r) := by
  have ed := deltasOf_normals (g :: h :: r)
  have eo := othersOf_normals (g :: h :: r)
  have eg := gaussiansOf_normals (g :: h :: r)
  change (match deltasOf (normals (g :: h :: r)) with
    | c :: r => if ∀ c' ∈ r, c' = c then Except.ok (UDist.delta c) else Except.error PyErr.valueError
    | [] => match othersOf (normals (g :: h :: r)), gaussiansOf (normals (g :: h :: r)) with
      | [], gs => combineGaussians gs | os, [] => _ | os, gs => _) = _
  simp only [ed, eo, eg]

/-- Closed form of the combination of normal distributions, also for a single one. -/
theorem combine_normals (gs : List (ℝ × ℝ)) (hn : gs ≠ []) (hp : Pos gs) :
    combine (normals gs) = .ok (.normal (weightedAverage gs).1 (weightedAverage gs).2) ∧
    0 < (weightedAverage gs).2 := by
  have hw := sum_w_pos hp hn
  have hu : 0 < (weightedAverage gs).2 := Real.sqrt_pos.2 (one_div_pos.2 hw)
  refine ⟨?_, hu⟩
  match gs, hn, hp with
  | [g], _, hp =>
    show Except.ok (UDist.normal g.1 g.2) = _
    have hg := hp g (by simp)
    simp only [weightedAverage, List.map_cons, List.map_nil, List.sum_cons, List.sum_nil, add_zero]
    rw [one_div_one_div, Real.sqrt_sq hg.le]
    congr 2
    field_simp
  | g :: h :: r, hn, hp =>
    rw [combine_normals_two]
    exact mkNormal_ok hu

/-- The sum of the log-PDFs as a quadratic polynomial. -/
theorem sum_logpdf (gs : List (ℝ × ℝ)) (hp : Pos gs) (x : ℝ) :
    (gs.map fun g => normalLogpdf x g.1 g.2).sum =
      -((gs.map fun g => 1 / g.2 ^ 2).sum * x ^ 2 - 2 * (gs.map fun g => g.1 * (1 / g.2 ^ 2)).sum * x +
        (gs.map fun g => g.1 ^ 2 * (1 / g.2 ^ 2)).sum) / 2 -
      (gs.map fun g => Real.log (Real.sqrt (2 * Real.pi) * g.2)).sum := by
  induction gs with
  | nil => simp
  | cons g gs ih =>
    simp only [List.map_cons, List.sum_cons]
    rw [ih fun g hg => hp g (List.mem_cons_of_mem _ hg)]
    have := hp g (by simp)
    unfold normalLogpdf
    field_simp
    ring

/-- **C32 (product of the PDFs)** The combination of normal distributions is a normal distribution, and its
log-PDF differs from the sum of the individual log-PDFs by a constant. -/
theorem C32_product (gs : List (ℝ × ℝ)) (hn : gs ≠ []) (hp : Pos gs) :
    ∃ c s k, combine (normals gs) = .ok (.normal c s) ∧ 0 < s ∧
      ∀ x, (gs.map fun g => normalLogpdf x g.1 g.2).sum = normalLogpdf x c s + k := by
  obtain ⟨h1, h2⟩ := combine_normals gs hn hp
  have hw := sum_w_pos hp hn
  refine ⟨_, _, (gs.map fun g => normalLogpdf 0 g.1 g.2).sum -
    normalLogpdf 0 (weightedAverage gs).1 (weightedAverage gs).2, h1, h2, fun x => ?_⟩
  rw [sum_logpdf gs hp, sum_logpdf gs hp]
  unfold normalLogpdf weightedAverage
  simp only
  rw [Real.sq_sqrt (one_div_pos.2 hw).le]
  generalize (gs.map fun g => 1 / g.2 ^ 2).sum = W at *
  generalize (gs.map fun g => g.1 * (1 / g.2 ^ 2)).sum = S
  field_simp
  ring

/-- **C32 (order)** -/
theorem C32_order (gs gs' : List (ℝ × ℝ)) (h : gs.Perm gs') (hp : Pos gs) :
    combine (normals gs) = combine (normals gs') := by
  by_cases hn : gs = []
  · subst hn; rw [List.nil_perm.1 h]
  have hn' : gs' ≠ [] := by rintro rfl; exact hn (List.perm_nil.1 h)
  have hp' : Pos gs' := fun g hg => hp g (h.symm.subset hg)
  rw [(combine_normals gs hn hp).1, (combine_normals gs' hn' hp').1]
  have hsum : ∀ f : ℝ × ℝ → ℝ, (gs.map f).sum = (gs'.map f).sum := fun f => (h.map f).sum_eq
  unfold weightedAverage
  rw [hsum, hsum]

theorem le_sum_of_mem {l : List ℝ} (h : ∀ v ∈ l, 0 ≤ v) {v : ℝ} (hv : v ∈ l) : v ≤ l.sum := by
  induction l with
  | nil => cases hv
  | cons a r ih =>
    rw [List.sum_cons]
    rcases List.mem_cons.1 hv with rfl | hv
    · linarith [sum_nonneg' fun w hw => h w (List.mem_cons_of_mem _ hw)]
    · linarith [ih (fun w hw => h w (List.mem_cons_of_mem _ hw)) hv, h a (by simp)]

/-- **C32 (bounds)** The standard deviation is at most each individual one and the central value lies
between any lower and upper bound of the individual ones. -/
theorem C32_bounds (gs : List (ℝ × ℝ)) (hn : gs ≠ []) (hp : Pos gs) :
    ∃ c s, combine (normals gs) = .ok (.normal c s) ∧ (∀ g ∈ gs, s ≤ g.2) ∧
      (∀ lo hi, (∀ g ∈ gs, lo ≤ g.1 ∧ g.1 ≤ hi) → lo ≤ c ∧ c ≤ hi) := by
  obtain ⟨h1, h2⟩ := combine_normals gs hn hp
  have hw := sum_w_pos hp hn
  refine ⟨_, _, h1, ?_, ?_⟩
  · intro g hg
    unfold weightedAverage
    simp only
    have hg2 := hp g hg
    rw [Real.sqrt_le_left hg2.le, one_div_le hw (pow_pos hg2 2)]
    refine le_sum_of_mem (fun v hv => ?_) (List.mem_map.2 ⟨g, hg, rfl⟩)
    obtain ⟨g', _, rfl⟩ := List.mem_map.1 hv
    positivity
  · intro lo hi hb
    unfold weightedAverage
    simp only
    rw [le_div_iff₀ hw, div_le_iff₀ hw]
    have key : ∀ l : List (ℝ × ℝ), (∀ g ∈ l, lo ≤ g.1 ∧ g.1 ≤ hi) →
        lo * (l.map fun g => 1 / g.2 ^ 2).sum ≤ (l.map fun g => g.1 * (1 / g.2 ^ 2)).sum ∧
        (l.map fun g => g.1 * (1 / g.2 ^ 2)).sum ≤ hi * (l.map fun g => 1 / g.2 ^ 2).sum := by
      intro l
      induction l with
      | nil => intro _; simp
      | cons g l ih =>
        intro h
        obtain ⟨i1, i2⟩ := ih fun g hg => h g (List.mem_cons_of_mem _ hg)
        obtain ⟨b1, b2⟩ := h g (by simp)
        have hq : 0 ≤ 1 / g.2 ^ 2 := by positivity
        simp only [List.map_cons, List.sum_cons]
        constructor
        · have := mul_le_mul_of_nonneg_right b1 hq; linarith
        · have := mul_le_mul_of_nonneg_right b2 hq; linarith
    exact key gs hb

/-- **C32 (incremental)** Combining two lists of normal distributions separately and then combining the
results is the same as combining everything at once. -/
theorem C32_incremental (gs hs : List (ℝ × ℝ)) (hg : gs ≠ []) (hh : hs ≠ []) (pg : Pos gs) (ph : Pos hs) :
    ∃ a b, combine (normals gs) = .ok a ∧ combine (normals hs) = .ok b ∧
      combine [a, b] = combine (normals (gs ++ hs)) := by
  obtain ⟨g1, g2⟩ := combine_normals gs hg pg
  obtain ⟨h1, h2⟩ := combine_normals hs hh ph
  refine ⟨_, _, g1, h1, ?_⟩
  have hp : Pos (gs ++ hs) := fun p hp => by
    rcases List.mem_append.1 hp with h | h
    · exact pg p h
    · exact ph p h
  rw [(combine_normals (gs ++ hs) (by simp [hg]) hp).1]
  have := (combine_normals [weightedAverage gs, weightedAverage hs] (by simp) (by
    intro p hp
    rcases List.mem_cons.1 hp with rfl | hp
    · exact g2
    · rw [List.mem_singleton.1 hp]; exact h2)).1
  simp only [normals, List.map_cons, List.map_nil] at this
  rw [this]
  have hwg := sum_w_pos pg hg
  have hwh := sum_w_pos ph hh
  unfold weightedAverage
  simp only [List.map_cons, List.map_nil, List.sum_cons, List.sum_nil, add_zero, List.map_append, List.sum_append]
  rw [Real.sq_sqrt (one_div_pos.2 hwg).le, Real.sq_sqrt (one_div_pos.2 hwh).le]
  simp only [one_div_one_div]
  rw [div_mul_cancel₀ _ (ne_of_gt hwg), div_mul_cancel₀ _ (ne_of_gt hwh)]

/-! ## C33 -/

/-- **C33 (delta wins)** If all delta distributions in the list agree, the combination is that delta
distribution. -/
theorem C33_delta_wins (ds : List UDist) (c : ℝ) (h : UDist.delta c ∈ ds)
    (hall : ∀ c', UDist.delta c' ∈ ds → c' = c) : combine ds = .ok (.delta c) := by
  have hmem : ∀ c', c' ∈ deltasOf ds ↔ UDist.delta c' ∈ ds := by
    intro c'
    unfold deltasOf
    rw [List.mem_filterMap]
    constructor
    · rintro ⟨d, hd, he⟩
      cases d <;> simp at he
      subst he; exact hd
    · intro hd; exact ⟨_, hd, rfl⟩
  match ds, h with
  | [d], h => rw [List.mem_singleton.1 h]; rfl
  | d0 :: d1 :: r, h =>
    show (match deltasOf (d0 :: d1 :: r) with
      | c :: r => if ∀ c' ∈ r, c' = c then Except.ok (UDist.delta c) else Except.error PyErr.valueError
      | [] => _) = _
    have hc := (hmem c).2 h
    cases hd : deltasOf (d0 :: d1 :: r) with
    | nil => rw [hd] at hc; cases hc
    | cons e es =>
      have he : ∀ c' ∈ e :: es, c' = c := fun c' h' => hall c' ((hmem c').1 (by rw [hd]; exact h'))
      simp only
      rw [if_pos fun c' h' => by rw [he c' (List.mem_cons_of_mem _ h'), he e (by simp)], he e (by simp)]

/-- **C33 (contradiction)** Two delta distributions at different points: `ValueError`. -/
theorem C33_conflicting_deltas (ds : List UDist) (c c' : ℝ) (h : UDist.delta c ∈ ds) (h' : UDist.delta c' ∈ ds)
    (hne : c ≠ c') : combine ds = .error .valueError := by
  have hmem : ∀ c', UDist.delta c' ∈ ds → c' ∈ deltasOf ds := fun c' hd => List.mem_filterMap.2 ⟨_, hd, rfl⟩
  match ds, h, h' with
  | [d], h, h' =>
    have := (List.mem_singleton.1 h).trans (List.mem_singleton.1 h').symm
    injection this with this
    exact absurd this hne
  | d0 :: d1 :: r, h, h' =>
    show (match deltasOf (d0 :: d1 :: r) with
      | c :: r => if ∀ c' ∈ r, c' = c then Except.ok (UDist.delta c) else Except.error PyErr.valueError
      | [] => _) = _
    have hc := hmem c h
    have hc' := hmem c' h'
    cases hd : deltasOf (d0 :: d1 :: r) with
    | nil => rw [hd] at hc; cases hc
    | cons e es =>
      rw [hd] at hc hc'
      simp only
      rw [if_neg]
      intro hall
      have hall' : ∀ v ∈ e :: es, v = e := by
        intro v hv
        rcases List.mem_cons.1 hv with rfl | hv
        · rfl
        · exact hall v hv
      exact hne ((hall' c hc).trans (hall' c' hc').symm)

/-! ### Concrete instances -/
example : Pos [(1, 3), (1, 4)] := by intro g hg; rcases List.mem_cons.1 hg with rfl | hg
                                     · norm_num
                                     · rw [List.mem_singleton.1 hg]; norm_num
/-- 3² + 4² = 5². -/
example : convolve (normals [(1, 3), (1, 4)]) .same = .ok (.normal 1 5) := by
  obtain ⟨s, hs, h1, h2⟩ := C29_same 1 [(1, 3), (1, 4)] (by simp)
    (by intro g hg; rcases List.mem_cons.1 hg with rfl | hg
        · norm_num
        · rw [List.mem_singleton.1 hg]; norm_num)
    (by intro g hg; rcases List.mem_cons.1 hg with rfl | hg
        · rfl
        · rw [List.mem_singleton.1 hg])
  rw [h2]
  have : s = 5 := by
    norm_num at h1
    nlinarith
  rw [this]

end Verif.Probability
