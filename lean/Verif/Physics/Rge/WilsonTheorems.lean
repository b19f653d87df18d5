import Verif.Physics.Rge.Wilson
import Mathlib.Analysis.SpecialFunctions.Pow.Real
import Mathlib.Analysis.SpecialFunctions.Exp
import Mathlib.Analysis.SpecialFunctions.ExpDeriv
import Mathlib.Analysis.SpecialFunctions.Log.Deriv
import Mathlib.Tactic.NormNum
/-!
# C163: the evolution of Wilson coefficients is linear
-/
set_option linter.unusedVariables false
set_option linter.unusedSimpArgs false
namespace Verif.Rge
open Verif.Py Verif.Running

variable {N : ℕ}

/-- The couplings alone can be run through every step between the two scales. (Specification: the same evolution, of the
couplings, recording whether all steps exist.) -/
def CouplingsRun (flow : ℕ → ℝ → ℝ → WState N → WState N) (t : Thr) (al : ℝ × ℝ) (sIn sOut : ℝ)
    (nfOut : Option ℕ) : Prop :=
  ∀ r : (ℝ × ℝ) × Prop,
    evolve (fun nf a b x => ((flow nf a b (0, x.1)).2, x.2 ∧ Runs nf a b x.1)) t sIn sOut nfOut (al, True) = .ok r → r.2

theorem related_pointwise {flow : ℕ → ℝ → ℝ → WState N → WState N} {t : Thr} (ht : ∀ n, 0 < t.at n) {sIn sOut : ℝ}
    (hin : 0 < sIn) (nfOut : Option ℕ) (F : (Fin N → ℂ) → WState N) (c : Fin N → ℂ) :
    Related (fun (G : (Fin N → ℂ) → WState N) x => G c = x)
      (evolve (fun nf a b G d => flow nf a b (G d)) t sIn sOut nfOut F) (evolve flow t sIn sOut nfOut (F c)) :=
  evolve_related ht (fun nf a b G x _ _ h => by dsimp only; rw [h]) hin nfOut rfl

/-- C163. For an exact solution of the differential equation with a continuous anomalous dimension matrix, and couplings that
can be run between the scales, the evolution either fails in the same way for all initial coefficients, or it is the
application of one complex-linear map that does not depend on them. -/
theorem C163_linear {adm : ℕ → ℝ → ℝ → Matrix (Fin N) (Fin N) ℂ} {flow : ℕ → ℝ → ℝ → WState N → WState N}
    (hf : Exact adm flow) (hadm : ∀ nf, Continuous fun al : ℝ × ℝ => adm nf al.1 al.2) {t : Thr}
    (ht : ∀ n, 0 < t.at n) {sIn sOut : ℝ} (hin : 0 < sIn) (nfOut : Option ℕ) {al : ℝ × ℝ}
    (hr : CouplingsRun flow t al sIn sOut nfOut) :
    (∃ e, ∀ c, getWilson flow t al c sIn sOut nfOut = .error e) ∨
      ∃ U : (Fin N → ℂ) →ₗ[ℂ] (Fin N → ℂ), ∀ c, getWilson flow t al c sIn sOut nfOut = .ok (U c) := by
  have h := evolve_related (R := fun (G : (Fin N → ℂ) → WState N) (y : (ℝ × ℝ) × Prop) =>
      y.2 → ∃ U : (Fin N → ℂ) →ₗ[ℂ] (Fin N → ℂ), ∀ c, G c = (U c, y.1))
    (f := fun nf a b G d => flow nf a b (G d))
    (g := fun nf a b x => ((flow nf a b (0, x.1)).2, x.2 ∧ Runs nf a b x.1)) ht
    (fun nf a b G y ha hb hG hy => by
      obtain ⟨U, hU⟩ := hG hy.1
      obtain ⟨V, hV⟩ := step_linear hf hadm ha hb hy.2
      exact ⟨V.comp U, fun c => by dsimp only; rw [hU, hV]; rfl⟩)
    (sOut := sOut) hin nfOut (x := fun c => (c, al)) (y := (al, True)) (fun _ => ⟨LinearMap.id, fun c => rfl⟩)
  have hp := related_pointwise (flow := flow) ht (sOut := sOut) hin nfOut (fun c => (c, al))
  revert h hp
  unfold CouplingsRun at hr
  generalize evolve (fun nf a b (G : (Fin N → ℂ) → WState N) d => flow nf a b (G d)) t sIn sOut nfOut (fun c => (c, al)) = u
  revert hr
  generalize evolve (fun nf a b (x : (ℝ × ℝ) × Prop) => ((flow nf a b (0, x.1)).2, x.2 ∧ Runs nf a b x.1)) t sIn sOut nfOut
    (al, True) = v
  intro hr h hp
  unfold getWilson
  cases u with
  | error e =>
    left
    refine ⟨e, fun c => ?_⟩
    have := hp c
    dsimp only at this ⊢
    revert this
    cases evolve flow t sIn sOut nfOut (c, al) with
    | error e' => intro this; cases (this : e = e'); rfl
    | ok r => intro this; exact this.elim
  | ok G =>
    right
    cases v with
    | error e => exact h.elim
    | ok y =>
      obtain ⟨U, hU⟩ := (show y.2 → _ from h) (hr y rfl)
      refine ⟨U, fun c => ?_⟩
      have := hp c
      dsimp only at this ⊢
      revert this
      cases evolve flow t sIn sOut nfOut (c, al) with
      | error e' => intro this; exact this.elim
      | ok r => intro this; have this : G c = r := this; rw [← this, hU c]; rfl

/-- Special case: superposition. -/
theorem C163_superposition {adm : ℕ → ℝ → ℝ → Matrix (Fin N) (Fin N) ℂ} {flow : ℕ → ℝ → ℝ → WState N → WState N}
    (hf : Exact adm flow) (hadm : ∀ nf, Continuous fun al : ℝ × ℝ => adm nf al.1 al.2) {t : Thr}
    (ht : ∀ n, 0 < t.at n) {sIn sOut : ℝ} (hin : 0 < sIn) (nfOut : Option ℕ) {al : ℝ × ℝ}
    (hr : CouplingsRun flow t al sIn sOut nfOut) {c d u v : Fin N → ℂ} (k : ℂ)
    (hc : getWilson flow t al c sIn sOut nfOut = .ok u) (hd : getWilson flow t al d sIn sOut nfOut = .ok v) :
    getWilson flow t al (c + k • d) sIn sOut nfOut = .ok (u + k • v) := by
  rcases C163_linear hf hadm ht hin nfOut hr with ⟨e, h⟩ | ⟨U, h⟩
  · rw [h] at hc; cases hc
  · rw [h] at hc hd ⊢
    cases hc; cases hd
    rw [map_add, map_smul]

/-- Special case: without initial coefficients there are none at the other scale. -/
theorem C163_zero {adm : ℕ → ℝ → ℝ → Matrix (Fin N) (Fin N) ℂ} {flow : ℕ → ℝ → ℝ → WState N → WState N}
    (hf : Exact adm flow) (hadm : ∀ nf, Continuous fun al : ℝ × ℝ => adm nf al.1 al.2) {t : Thr}
    (ht : ∀ n, 0 < t.at n) {sIn sOut : ℝ} (hin : 0 < sIn) (nfOut : Option ℕ) {al : ℝ × ℝ}
    (hr : CouplingsRun flow t al sIn sOut nfOut) {u : Fin N → ℂ}
    (hc : getWilson flow t al 0 sIn sOut nfOut = .ok u) : u = 0 := by
  rcases C163_linear hf hadm ht hin nfOut hr with ⟨e, h⟩ | ⟨U, h⟩
  · rw [h] at hc; cases hc
  · rw [h] at hc; cases hc; exact map_zero U

/-- The step between the same scales is trivial: no evolution. -/
theorem C163_same_scale (flow : ℕ → ℝ → ℝ → WState N → WState N) (t : Thr) (al : ℝ × ℝ) (c : Fin N → ℂ) (s : ℝ)
    (nfOut : Option ℕ) : getWilson flow t al c s s nfOut = .ok c := by
  unfold getWilson evolve
  simp only [if_true]
  rfl

/-! ### Coefficients that do not run -/

theorem step_conserved {adm : ℕ → ℝ → ℝ → Matrix (Fin N) (Fin N) ℂ} {nf : ℕ} {a b : ℝ} {x y : WState N}
    (h : Solves adm nf a b x y) {w : Fin N → ℂ} (hw : ∀ al : ℝ × ℝ, (adm nf al.1 al.2).mulVec w = 0) :
    ∑ i, w i * y.1 i = ∑ i, w i * x.1 i := by
  obtain ⟨X, X0, X1, X2⟩ := h
  have d : ∀ mu ∈ Set.uIcc a b, HasDerivWithinAt (fun m => ∑ i, w i * (X m).1 i) 0 (Set.uIcc a b) mu := by
    intro mu hmu
    have h1 : HasDerivWithinAt (fun m => (X m).1) (wilsonDeriv adm nf (X mu) mu).1 (Set.uIcc a b) mu :=
      (ContinuousLinearMap.fst ℝ (Fin N → ℂ) (ℝ × ℝ)).hasFDerivAt.comp_hasDerivWithinAt mu (X2 mu hmu)
    have h2 := hasDerivWithinAt_pi.1 h1
    have h3 : HasDerivWithinAt (fun m => ∑ i, w i * (X m).1 i) (∑ i, w i * (wilsonDeriv adm nf (X mu) mu).1 i)
        (Set.uIcc a b) mu := HasDerivWithinAt.fun_sum fun i _ => (h2 i).const_mul (w i)
    have e : ∑ i, w i * (wilsonDeriv adm nf (X mu) mu).1 i = 0 := by
      have : ∑ i, w i * (wilsonDeriv adm nf (X mu) mu).1 i
          = w ⬝ᵥ ((mu⁻¹ : ℝ) • ((adm nf (X mu).2.1 (X mu).2.2).transpose.mulVec (X mu).1)) := rfl
      rw [this, dotProduct_smul, Matrix.dotProduct_mulVec, Matrix.vecMul_transpose, hw (X mu).2, zero_dotProduct, smul_zero]
    rw [e] at h3
    exact h3
  have := unique_uIcc (v := fun _ _ => (0 : ℂ)) (K := 0) (s := Set.univ)
    (fun t _ => LipschitzOnWith.of_dist_le_mul fun x _ y _ => by simp) d (fun _ _ => Set.mem_univ _)
    (g := fun _ => ∑ i, w i * x.1 i) (fun t _ => hasDerivWithinAt_const _ _ _) (fun _ _ => Set.mem_univ _) (by rw [X0])
  have := this (Set.right_mem_uIcc)
  beta_reduce at this
  rw [X1] at this
  exact this

/-- C163, conserved operators: a combination `Σ wᵢ Cᵢ` with `γ w = 0` for all couplings and flavour numbers is the same at
both scales, across all thresholds. -/
theorem C163_conserved {adm : ℕ → ℝ → ℝ → Matrix (Fin N) (Fin N) ℂ} {flow : ℕ → ℝ → ℝ → WState N → WState N}
    (hf : Exact adm flow) (hadm : ∀ nf, Continuous fun al : ℝ × ℝ => adm nf al.1 al.2) {t : Thr}
    (ht : ∀ n, 0 < t.at n) {sIn sOut : ℝ} (hin : 0 < sIn) (nfOut : Option ℕ) {al : ℝ × ℝ}
    (hr : CouplingsRun flow t al sIn sOut nfOut) {w : Fin N → ℂ}
    (hw : ∀ nf (al : ℝ × ℝ), (adm nf al.1 al.2).mulVec w = 0) {c u : Fin N → ℂ}
    (hc : getWilson flow t al c sIn sOut nfOut = .ok u) : ∑ i, w i * u i = ∑ i, w i * c i := by
  have h := evolve_related (R := fun (x : WState N) (y : (ℝ × ℝ) × Prop) =>
      y.2 → x.2 = y.1 ∧ ∑ i, w i * x.1 i = ∑ i, w i * c i)
    (f := flow) (g := fun nf a b x => ((flow nf a b (0, x.1)).2, x.2 ∧ Runs nf a b x.1)) ht
    (fun nf a b x y ha hb hx hy => by
      obtain ⟨h1, h2⟩ := hx hy.1
      have hy2 : Runs nf a b x.2 := h1 ▸ hy.2
      obtain ⟨V, hV⟩ := step_linear hf hadm ha hb hy2
      refine ⟨?_, ?_⟩
      · have := hV x.1
        show (flow nf a b x).2 = (flow nf a b (0, y.1)).2
        rw [← h1]; exact (Prod.ext_iff.1 this).2
      · exact (step_conserved (hf nf a b x ha hb hy2) (hw nf)).trans h2)
    (sOut := sOut) hin nfOut (x := (c, al)) (y := (al, True)) (fun _ => ⟨rfl, rfl⟩)
  have hc : (evolve flow t sIn sOut nfOut (c, al)).bind (fun sol => .ok sol.1) = .ok u := hc
  unfold CouplingsRun at hr
  revert h hr hc
  generalize evolve flow t sIn sOut nfOut (c, al) = p
  generalize evolve (fun nf a b (x : (ℝ × ℝ) × Prop) => ((flow nf a b (0, x.1)).2, x.2 ∧ Runs nf a b x.1)) t sIn sOut nfOut
    (al, True) = q
  intro hr h hc
  cases p with
  | error e => cases hc
  | ok x =>
    cases q with
    | error e => exact h.elim
    | ok y =>
      have := (show y.2 → _ from h) (hr y rfl)
      cases hc
      exact this.2

/-! ### The hypotheses can be met -/

/-- Couplings can always be run over some interval upwards (existence of solutions). -/
theorem runs_exists (nf : ℕ) {a : ℝ} (ha : 0 < a) (al : ℝ × ℝ) : ∃ b, a < b ∧ Runs nf a b al := by
  obtain ⟨α, h0, ε, he, h⟩ :=
    ((betaPoly_contDiff nf).contDiffAt (x := al)).exists_forall_mem_closedBall_exists_eq_forall_mem_Ioo_hasDerivAt₀
      (Real.log a)
  refine ⟨a * Real.exp (ε / 2), ?_, fun mu => α (Real.log mu), h0, fun mu hmu => ?_⟩
  · have : 1 < Real.exp (ε / 2) := Real.one_lt_exp_iff.2 (by linarith)
    nlinarith
  · have h1 : a ≤ a * Real.exp (ε / 2) := by
      have : 1 ≤ Real.exp (ε / 2) := Real.one_le_exp (by linarith)
      nlinarith
    rw [Set.uIcc_of_le h1] at hmu ⊢
    have hmu0 : 0 < mu := lt_of_lt_of_le ha hmu.1
    have l1 : Real.log a ≤ Real.log mu := Real.log_le_log ha hmu.1
    have l2 : Real.log mu ≤ Real.log a + ε / 2 := by
      have := Real.log_le_log hmu0 hmu.2
      rwa [Real.log_mul ha.ne' (Real.exp_ne_zero _), Real.log_exp] at this
    have hd := h (Real.log mu) ⟨by linarith, by linarith⟩
    have := hd.scomp mu (Real.hasDerivAt_log hmu0.ne')
    rw [betaFn_eq hmu0.ne']
    exact this.hasDerivWithinAt

/-- A matrix: constant for one coefficient. (Specification.) -/
noncomputable def admEx (g : ℂ) : ℕ → ℝ → ℝ → Matrix (Fin 1) (Fin 1) ℂ := fun _ _ _ _ _ => g

open Classical in
/-- Its exact flow: `C(b) = C(a) exp(g log(b/a))`. (Specification.) -/
noncomputable def flowEx (g : ℂ) (nf : ℕ) (a b : ℝ) (x : WState 1) : WState 1 :=
  if h : Runs nf a b x.2 then (fun i => Complex.exp (g * (Real.log b - Real.log a : ℝ)) * x.1 i, h.choose b) else x

theorem exact_flowEx (g : ℂ) : Exact (admEx g) (flowEx g) := by
  intro nf a b x ha hb hr
  have hA := hr.choose_spec
  refine ⟨fun mu => (fun i => Complex.exp (g * (Real.log mu - Real.log a : ℝ)) * x.1 i, hr.choose mu), ?_, ?_, ?_⟩
  · refine Prod.ext ?_ hA.1
    funext i
    simp
  · unfold flowEx
    rw [dif_pos hr]
  · intro mu hmu
    have hmu0 : 0 < mu := lt_of_lt_of_le (lt_min ha hb) hmu.1
    refine HasDerivWithinAt.prodMk ?_ (hA.2 mu hmu)
    refine hasDerivWithinAt_pi.2 fun i => ?_
    have d1 : HasDerivAt (fun m : ℝ => ((Real.log m - Real.log a : ℝ) : ℂ)) ((mu⁻¹ : ℝ) : ℂ) mu :=
      ((Real.hasDerivAt_log hmu0.ne').sub_const _).ofReal_comp
    have d2 := ((d1.const_mul g).cexp).mul_const (x.1 i)
    refine HasDerivWithinAt.congr_deriv d2.hasDerivWithinAt ?_
    have : (wilsonDeriv (admEx g) nf (fun i => Complex.exp (g * (Real.log mu - Real.log a : ℝ)) * x.1 i, hr.choose mu) mu).1 i
        = ((mu⁻¹ : ℝ) : ℂ) * (g * (Complex.exp (g * (Real.log mu - Real.log a : ℝ)) * x.1 i)) := by
      unfold wilsonDeriv admEx
      have e0 : (0 : Fin 1) = i := Subsingleton.elim _ _
      simp [Matrix.mulVec, dotProduct, Matrix.transpose, e0]
    refine Eq.trans ?_ this.symm
    ring

/-- The hypotheses of `C163_linear` hold in a case with `alpha_s = 0.1185`, a nonzero anomalous dimension, and two different
scales, and the evolution is not the identity. -/
theorem C163_nonvacuous : ∃ (adm : ℕ → ℝ → ℝ → Matrix (Fin 1) (Fin 1) ℂ) (flow : ℕ → ℝ → ℝ → WState 1 → WState 1) (t : Thr)
    (sOut : ℝ) (u : Fin 1 → ℂ),
    Exact adm flow ∧ (∀ nf, Continuous fun al : ℝ × ℝ => adm nf al.1 al.2) ∧ (∀ n, 0 < t.at n) ∧ 100 < sOut ∧
    CouplingsRun flow t (0.1185, 1 / 128) 100 sOut none ∧
    getWilson flow t (0.1185, 1 / 128) 1 100 sOut none = .ok u ∧ u 0 ≠ 1 := by
  obtain ⟨b, hb, hr⟩ := runs_exists 5 (a := 100) (by norm_num) (0.1185, 1 / 128)
  have hev : ∀ {X : Type} (f : ℕ → ℝ → ℝ → X → X) (x : X),
      evolve f ⟨1.3, 4.2, b + 1⟩ 100 b none x = .ok (f 5 100 b x) := by
    intro X f x
    have e5 : upStop (⟨1.3, 4.2, b + 1⟩ : Thr) 5 b = b := by
      unfold upStop
      rw [if_pos (by norm_num)]
      exact min_eq_right (by show b ≤ b + 1; linarith)
    unfold evolve evolve'
    rw [if_neg (by linarith), if_neg (by linarith), if_neg (by linarith)]
    unfold up
    rw [if_pos ⟨by norm_num, by show (1.3 : ℝ) ≤ 100; norm_num⟩]
    unfold up
    rw [if_pos ⟨by norm_num, by show (4.2 : ℝ) ≤ 100; norm_num⟩]
    unfold up
    rw [if_neg (fun h => absurd h.2 (by show ¬ (b + 1 ≤ 100); linarith))]
    dsimp only
    rw [e5, if_pos rfl]
  refine ⟨admEx 1, flowEx 1, ⟨1.3, 4.2, b + 1⟩, b,
    fun i => Complex.exp (1 * (Real.log b - Real.log 100 : ℝ)) * 1, exact_flowEx 1, fun nf => continuous_const, ?_, hb, ?_, ?_, ?_⟩
  · intro n
    unfold Thr.at
    split <;> norm_num
    linarith
  · intro r h
    rw [hev] at h
    cases h
    exact ⟨trivial, hr⟩
  · have h := hev (flowEx 1) ((1 : Fin 1 → ℂ), ((0.1185 : ℝ), (1 / 128 : ℝ)))
    unfold getWilson
    simp only [h, ok_bind_eq]
    unfold flowEx
    rw [dif_pos hr]
    rfl
  · have hl : Real.log 100 < Real.log b := Real.log_lt_log (by norm_num) hb
    have : 1 < Real.exp (Real.log b - Real.log 100) := Real.one_lt_exp_iff.2 (by linarith)
    rw [one_mul, mul_one, ← Complex.ofReal_exp]
    intro h
    have := Complex.ofReal_inj.1 (h.trans Complex.ofReal_one.symm)
    linarith

end Verif.Rge
