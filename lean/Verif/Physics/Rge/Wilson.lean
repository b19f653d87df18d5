import Verif.Physics.RunningTheorems
import Verif.Physics.Rge.Model
import Mathlib.Analysis.ODE.ExistUnique
import Mathlib.Analysis.Calculus.ContDiff.RCLike
import Mathlib.Analysis.Calculus.Deriv.Prod
import Mathlib.Analysis.Calculus.Deriv.Pow
import Mathlib.Analysis.Calculus.Deriv.Inv
import Mathlib.LinearAlgebra.Matrix.ToLin
import Mathlib.Topology.Instances.Matrix
import Mathlib.Topology.Algebra.MetricSpace.Lipschitz
/-!
# Renormalisation group evolution of Wilson coefficients
(`make_wilson_rge_derivative`, `get_wilson` in `flavio/physics/running/running.py`)

The state is a pair of the vector of Wilson coefficients and the pair `(alpha_s, alpha_e)`; in the code it is one real
array (`view(float)` of the complex coefficients, followed by the two couplings).
-/
set_option linter.unusedVariables false
set_option linter.unusedSimpArgs false
set_option linter.unusedSectionVars false
namespace Verif.Rge
open Verif.Py Verif.Running

variable {N : ℕ}

/-- The array `x`. /repo/flavio/physics/running/running.py:290-293, 311. -/
abbrev WState (N : ℕ) := (Fin N → ℂ) × (ℝ × ℝ)

/-- `betafunctions.beta_qcd_qed([alpha_s, alpha_e], mu, nf)` as a function (the exception for `mu = 0` becomes zero; the
theorems are about positive scales).  /repo/flavio/physics/running/running.py:294. -/
noncomputable def betaFn (nf : ℕ) (mu : ℝ) (al : ℝ × ℝ) : ℝ × ℝ :=
  match betaQcdQed al.1 al.2 mu nf with
  | .ok r => r
  | .error _ => 0

/-- `derivative(x, mu, nf)` of `make_wilson_rge_derivative(adm)`.  /repo/flavio/physics/running/running.py:289-297. -/
noncomputable def wilsonDeriv (adm : ℕ → ℝ → ℝ → Matrix (Fin N) (Fin N) ℂ) (nf : ℕ) (x : WState N) (mu : ℝ) : WState N :=
  let alphaS := x.2.1
  let alphaE := x.2.2
  let c := x.1
  let dAlpha := betaFn nf mu (alphaS, alphaE)
  let dC := (mu⁻¹ : ℝ) • ((adm nf alphaS alphaE).transpose.mulVec c)
  (dC, dAlpha)

/-- `get_wilson`, with `alphaIn` the result of `get_alpha(par, scale_in, nf_out)` and `flow` the numerical solution of the
differential equation with the derivative `wilsonDeriv adm`.  Simplification: the reinterpretation of complex as pairs of
real numbers is left out.  /repo/flavio/physics/running/running.py:302-317. -/
noncomputable def getWilson (flow : ℕ → ℝ → ℝ → WState N → WState N) (t : Thr) (alphaIn : ℝ × ℝ) (cIn : Fin N → ℂ)
    (sIn sOut : ℝ) (nfOut : Option ℕ) : Except PyErr (Fin N → ℂ) := do
  let xIn := (cIn, alphaIn)
  let sol ← evolve flow t sIn sOut nfOut xIn
  pure sol.1

/-! ### Specification -/

/-- `y` is the value at `b` of a solution of the RGE with value `x` at `a`. (Specification.) -/
def Solves (adm : ℕ → ℝ → ℝ → Matrix (Fin N) (Fin N) ℂ) (nf : ℕ) (a b : ℝ) (x y : WState N) : Prop :=
  ∃ X : ℝ → WState N, X a = x ∧ X b = y ∧
    ∀ mu ∈ Set.uIcc a b, HasDerivWithinAt X (wilsonDeriv adm nf (X mu) mu) (Set.uIcc a b) mu

/-- The couplings can be run from `a` to `b` (they do not reach a pole). (Specification.) -/
def Runs (nf : ℕ) (a b : ℝ) (al : ℝ × ℝ) : Prop :=
  ∃ A : ℝ → ℝ × ℝ, A a = al ∧ ∀ mu ∈ Set.uIcc a b, HasDerivWithinAt A (betaFn nf mu (A mu)) (Set.uIcc a b) mu

/-- The solver is exact whenever the couplings can be run. (Specification.) -/
def Exact (adm : ℕ → ℝ → ℝ → Matrix (Fin N) (Fin N) ℂ) (flow : ℕ → ℝ → ℝ → WState N → WState N) : Prop :=
  ∀ nf a b x, 0 < a → 0 < b → Runs nf a b x.2 → Solves adm nf a b x (flow nf a b x)

/-! ### Uniqueness of solutions -/

theorem unique_uIcc {E : Type*} [NormedAddCommGroup E] [NormedSpace ℝ E] {v : ℝ → E → E} {K : NNReal} {s : Set E}
    {a b : ℝ} (hv : ∀ t ∈ Set.uIcc a b, LipschitzOnWith K (v t) s) {f g : ℝ → E}
    (hf : ∀ t ∈ Set.uIcc a b, HasDerivWithinAt f (v t (f t)) (Set.uIcc a b) t) (hfs : ∀ t ∈ Set.uIcc a b, f t ∈ s)
    (hg : ∀ t ∈ Set.uIcc a b, HasDerivWithinAt g (v t (g t)) (Set.uIcc a b) t) (hgs : ∀ t ∈ Set.uIcc a b, g t ∈ s)
    (h0 : f a = g a) : Set.EqOn f g (Set.uIcc a b) := by
  have cf : ContinuousOn f (Set.uIcc a b) := fun t ht => (hf t ht).continuousWithinAt
  have cg : ContinuousOn g (Set.uIcc a b) := fun t ht => (hg t ht).continuousWithinAt
  rcases le_total a b with hab | hab
  · rw [Set.uIcc_of_le hab] at *
    have sub : ∀ t ∈ Set.Ico a b, t ∈ Set.Icc a b := fun t ht => ⟨ht.1, ht.2.le⟩
    have nb : ∀ t ∈ Set.Ico a b, Set.Icc a b ∈ nhdsWithin t (Set.Ici t) := fun t ht =>
      Filter.mem_of_superset (Icc_mem_nhdsGE ht.2) (Set.Icc_subset_Icc_left ht.1)
    exact ODE_solution_unique_of_mem_Icc_right (s := fun _ => s) (fun t ht => hv t (sub t ht)) cf
      (fun t ht => (hf t (sub t ht)).mono_of_mem_nhdsWithin (nb t ht)) (fun t ht => hfs t (sub t ht)) cg
      (fun t ht => (hg t (sub t ht)).mono_of_mem_nhdsWithin (nb t ht)) (fun t ht => hgs t (sub t ht)) h0
  · rw [Set.uIcc_of_ge hab] at *
    have sub : ∀ t ∈ Set.Ioc b a, t ∈ Set.Icc b a := fun t ht => ⟨ht.1.le, ht.2⟩
    have nb : ∀ t ∈ Set.Ioc b a, Set.Icc b a ∈ nhdsWithin t (Set.Iic t) := fun t ht =>
      Filter.mem_of_superset (Icc_mem_nhdsLE ht.1) (Set.Icc_subset_Icc_right ht.2)
    exact ODE_solution_unique_of_mem_Icc_left (s := fun _ => s) (fun t ht => hv t (sub t ht)) cf
      (fun t ht => (hf t (sub t ht)).mono_of_mem_nhdsWithin (nb t ht)) (fun t ht => hfs t (sub t ht)) cg
      (fun t ht => (hg t (sub t ht)).mono_of_mem_nhdsWithin (nb t ht)) (fun t ht => hgs t (sub t ht)) h0

/-- The polynomial part of the beta functions. (Specification.) -/
noncomputable def betaPoly (nf : ℕ) (al : ℝ × ℝ) : ℝ × ℝ :=
  ((-1 / 2 / Real.pi) * al.1 ^ 2 * ∑ ps : Fin 3, ∑ pe : Fin 3, (al.1 / 4 / Real.pi) ^ (ps : ℕ) * (al.2 / 4 / Real.pi) ^ (pe : ℕ) * bQcd nf ps pe,
   (1 / 2 / Real.pi) * al.2 ^ 2 * ∑ pe : Fin 2, ∑ ps : Fin 2, (al.2 / 4 / Real.pi) ^ (pe : ℕ) * (al.1 / 4 / Real.pi) ^ (ps : ℕ) * bQed pe ps)

theorem betaFn_eq {nf : ℕ} {mu : ℝ} (h : mu ≠ 0) (al : ℝ × ℝ) : betaFn nf mu al = mu⁻¹ • betaPoly nf al := by
  unfold betaFn betaQcdQed betaQcd betaQed pyDiv betaPoly
  simp only [if_neg h, ok_bind_eq]
  show (_, _) = mu⁻¹ • (_, _)
  rw [Prod.smul_mk, smul_eq_mul, smul_eq_mul]
  congr 1 <;> ring

theorem betaPoly_contDiff (nf : ℕ) : ContDiff ℝ 1 (betaPoly nf) := by
  unfold betaPoly
  refine ContDiff.prodMk ?_ ?_ <;> fun_prop

/-- On a bounded set and away from zero, the beta functions are Lipschitz. -/
theorem betaFn_lipschitz (nf : ℕ) {a b : ℝ} (ha : 0 < a) (hb : 0 < b) {s : Set (ℝ × ℝ)} (hs : IsCompact s) :
    ∃ K : NNReal, ∀ mu ∈ Set.uIcc a b, LipschitzOnWith K (betaFn nf mu) s := by
  have h := ((betaPoly_contDiff nf).locallyLipschitz.locallyLipschitzOn (s := s))
  obtain ⟨K, hK⟩ := h.exists_lipschitzOnWith_of_compact hs
  refine ⟨Real.toNNReal ((min a b)⁻¹) * K, fun mu hmu => ?_⟩
  have hm : 0 < min a b := lt_min ha hb
  have hmu' : min a b ≤ mu := hmu.1
  have hpos : 0 < mu := lt_of_lt_of_le hm hmu'
  refine LipschitzOnWith.of_dist_le_mul fun x hx y hy => ?_
  rw [betaFn_eq hpos.ne', betaFn_eq hpos.ne', dist_smul₀, NNReal.coe_mul, Real.coe_toNNReal _ (by positivity), mul_assoc]
  refine mul_le_mul ?_ (hK.dist_le_mul x hx y hy) dist_nonneg (by positivity)
  rw [Real.norm_of_nonneg (by positivity)]
  exact inv_anti₀ hm hmu'

/-- Couplings run in a unique way. -/
theorem runs_unique {nf : ℕ} {a b : ℝ} (ha : 0 < a) (hb : 0 < b) {A B : ℝ → ℝ × ℝ}
    (hA : ∀ mu ∈ Set.uIcc a b, HasDerivWithinAt A (betaFn nf mu (A mu)) (Set.uIcc a b) mu)
    (hB : ∀ mu ∈ Set.uIcc a b, HasDerivWithinAt B (betaFn nf mu (B mu)) (Set.uIcc a b) mu) (h0 : A a = B a) :
    Set.EqOn A B (Set.uIcc a b) := by
  have cA : ContinuousOn A (Set.uIcc a b) := fun t ht => (hA t ht).continuousWithinAt
  have cB : ContinuousOn B (Set.uIcc a b) := fun t ht => (hB t ht).continuousWithinAt
  have hs : IsCompact (A '' Set.uIcc a b ∪ B '' Set.uIcc a b) :=
    (isCompact_uIcc.image_of_continuousOn cA).union (isCompact_uIcc.image_of_continuousOn cB)
  obtain ⟨K, hK⟩ := betaFn_lipschitz nf ha hb hs
  exact unique_uIcc hK hA (fun t ht => Or.inl ⟨t, ht, rfl⟩) hB (fun t ht => Or.inr ⟨t, ht, rfl⟩) h0

/-! ### One step -/

theorem mulVec_norm_le (M : Matrix (Fin N) (Fin N) ℂ) (c : Fin N → ℂ) :
    ‖M.mulVec c‖ ≤ (∑ i, ∑ j, ‖M i j‖) * ‖c‖ := by
  have hnn : ∀ i, 0 ≤ ∑ j, ‖M i j‖ := fun i => Finset.sum_nonneg fun j _ => norm_nonneg _
  refine (pi_norm_le_iff_of_nonneg (by have := Finset.sum_nonneg fun i (_ : i ∈ Finset.univ) => hnn i; positivity)).2
    fun i => ?_
  have h1 : ‖M.mulVec c i‖ ≤ (∑ j, ‖M i j‖) * ‖c‖ := by
    unfold Matrix.mulVec dotProduct
    refine (norm_sum_le _ _).trans ?_
    rw [Finset.sum_mul]
    refine Finset.sum_le_sum fun j _ => ?_
    rw [norm_mul]
    exact mul_le_mul_of_nonneg_left (norm_le_pi_norm c j) (norm_nonneg _)
  refine h1.trans (mul_le_mul_of_nonneg_right ?_ (norm_nonneg _))
  exact Finset.single_le_sum (f := fun i => ∑ j, ‖M i j‖) (fun i _ => hnn i) (Finset.mem_univ i)

/-- The right-hand side of the equation of the coefficients for given couplings. (Specification.) -/
noncomputable def coeffField (adm : ℕ → ℝ → ℝ → Matrix (Fin N) (Fin N) ℂ) (nf : ℕ) (A : ℝ → ℝ × ℝ) (mu : ℝ)
    (c : Fin N → ℂ) : Fin N → ℂ :=
  (mu⁻¹ : ℝ) • ((adm nf (A mu).1 (A mu).2).transpose.mulVec c)

theorem coeffField_lipschitz {adm : ℕ → ℝ → ℝ → Matrix (Fin N) (Fin N) ℂ} {nf : ℕ} {a b : ℝ} (ha : 0 < a) (hb : 0 < b)
    (hadm : Continuous fun al : ℝ × ℝ => adm nf al.1 al.2) {A : ℝ → ℝ × ℝ} (cA : ContinuousOn A (Set.uIcc a b)) :
    ∃ K : NNReal, ∀ mu ∈ Set.uIcc a b, LipschitzOnWith K (coeffField adm nf A mu) Set.univ := by
  have hm : 0 < min a b := lt_min ha hb
  have c1 : ContinuousOn (fun mu => adm nf (A mu).1 (A mu).2) (Set.uIcc a b) := hadm.comp_continuousOn cA
  have c2 : ContinuousOn (fun mu : ℝ => mu⁻¹ * ∑ i, ∑ j, ‖(adm nf (A mu).1 (A mu).2).transpose i j‖) (Set.uIcc a b) := by
    refine ContinuousOn.mul ?_ ?_
    · exact continuousOn_id.inv₀ fun x hx => (lt_of_lt_of_le hm hx.1).ne'
    · refine continuousOn_finsetSum _ fun i _ => continuousOn_finsetSum _ fun j _ => ContinuousOn.norm ?_
      have := (continuous_id.matrix_elem j i : Continuous fun M : Matrix (Fin N) (Fin N) ℂ => M j i)
      exact this.comp_continuousOn c1
  obtain ⟨K, hK⟩ := isCompact_uIcc.bddAbove_image c2
  refine ⟨Real.toNNReal K, fun mu hmu => LipschitzOnWith.of_dist_le_mul fun x _ y _ => ?_⟩
  have hpos : 0 < mu := lt_of_lt_of_le hm hmu.1
  have hle : mu⁻¹ * ∑ i, ∑ j, ‖(adm nf (A mu).1 (A mu).2).transpose i j‖ ≤ K := hK ⟨mu, hmu, rfl⟩
  unfold coeffField
  rw [dist_smul₀, dist_eq_norm, ← Matrix.mulVec_sub, Real.norm_of_nonneg (inv_nonneg.2 hpos.le), dist_eq_norm]
  calc mu⁻¹ * ‖(adm nf (A mu).1 (A mu).2).transpose.mulVec (x - y)‖
      ≤ mu⁻¹ * ((∑ i, ∑ j, ‖(adm nf (A mu).1 (A mu).2).transpose i j‖) * ‖x - y‖) :=
        mul_le_mul_of_nonneg_left (mulVec_norm_le _ _) (inv_nonneg.2 hpos.le)
    _ = (mu⁻¹ * ∑ i, ∑ j, ‖(adm nf (A mu).1 (A mu).2).transpose i j‖) * ‖x - y‖ := by ring
    _ ≤ Real.toNNReal K * ‖x - y‖ :=
        mul_le_mul_of_nonneg_right (hle.trans (Real.le_coe_toNNReal K)) (norm_nonneg _)

theorem step_linear {adm : ℕ → ℝ → ℝ → Matrix (Fin N) (Fin N) ℂ} {flow : ℕ → ℝ → ℝ → WState N → WState N}
    (hf : Exact adm flow) (hadm : ∀ nf, Continuous fun al : ℝ × ℝ => adm nf al.1 al.2) {nf : ℕ} {a b : ℝ} (ha : 0 < a)
    (hb : 0 < b) {al : ℝ × ℝ} (hr : Runs nf a b al) :
    ∃ V : (Fin N → ℂ) →ₗ[ℂ] (Fin N → ℂ), ∀ c, flow nf a b (c, al) = (V c, (flow nf a b (0, al)).2) := by
  choose X X0 X1 X2 using fun c => hf nf a b (c, al) ha hb hr
  have ma : a ∈ Set.uIcc a b := Set.left_mem_uIcc
  have mb : b ∈ Set.uIcc a b := Set.right_mem_uIcc
  have dA : ∀ c, ∀ mu ∈ Set.uIcc a b,
      HasDerivWithinAt (fun m => (X c m).2) (betaFn nf mu (X c mu).2) (Set.uIcc a b) mu := by
    intro c mu hmu
    have := (ContinuousLinearMap.snd ℝ (Fin N → ℂ) (ℝ × ℝ)).hasFDerivAt.comp_hasDerivWithinAt mu (X2 c mu hmu)
    exact this
  have eA : ∀ c, Set.EqOn (fun m => (X c m).2) (fun m => (X 0 m).2) (Set.uIcc a b) := fun c =>
    runs_unique ha hb (dA c) (dA 0) (by rw [X0, X0])
  have cA : ContinuousOn (fun m => (X 0 m).2) (Set.uIcc a b) := fun t ht => (dA 0 t ht).continuousWithinAt
  have dC : ∀ c, ∀ mu ∈ Set.uIcc a b, HasDerivWithinAt (fun m => (X c m).1)
      (coeffField adm nf (fun m => (X 0 m).2) mu (X c mu).1) (Set.uIcc a b) mu := by
    intro c mu hmu
    have := (ContinuousLinearMap.fst ℝ (Fin N → ℂ) (ℝ × ℝ)).hasFDerivAt.comp_hasDerivWithinAt mu (X2 c mu hmu)
    have h2 := eA c hmu
    unfold coeffField
    beta_reduce at h2 ⊢
    rw [← h2]
    exact this
  obtain ⟨K, hK⟩ := coeffField_lipschitz ha hb (hadm nf) cA
  have add : ∀ c d, (X (c + d) b).1 = (X c b).1 + (X d b).1 := by
    intro c d
    have := unique_uIcc hK (dC (c + d)) (fun _ _ => Set.mem_univ _) (g := fun m => (X c m).1 + (X d m).1)
      (fun mu hmu => by
        have h := (dC c mu hmu).add (dC d mu hmu)
        have e : coeffField adm nf (fun m => (X 0 m).2) mu ((X c mu).1 + (X d mu).1)
            = coeffField adm nf (fun m => (X 0 m).2) mu (X c mu).1 + coeffField adm nf (fun m => (X 0 m).2) mu (X d mu).1 := by
          unfold coeffField; rw [Matrix.mulVec_add, smul_add]
        beta_reduce
        rw [e]
        exact h) (fun _ _ => Set.mem_univ _) (by simp only [X0])
    exact this mb
  have smul : ∀ (k : ℂ) c, (X (k • c) b).1 = k • (X c b).1 := by
    intro k c
    have := unique_uIcc hK (dC (k • c)) (fun _ _ => Set.mem_univ _) (g := fun m => k • (X c m).1)
      (fun mu hmu => by
        have h := (dC c mu hmu).const_smul k
        have e : coeffField adm nf (fun m => (X 0 m).2) mu (k • (X c mu).1)
            = k • coeffField adm nf (fun m => (X 0 m).2) mu (X c mu).1 := by
          unfold coeffField; rw [Matrix.mulVec_smul, smul_comm]
        beta_reduce
        rw [e]
        exact h) (fun _ _ => Set.mem_univ _) (by simp only [X0])
    exact this mb
  refine ⟨{ toFun := fun c => (X c b).1, map_add' := add, map_smul' := smul }, fun c => ?_⟩
  rw [← X1 c, ← X1 0]
  have h := eA c mb
  beta_reduce at h
  show X c b = ((X c b).1, (X 0 b).2)
  rw [← h]

/-! ### Running across thresholds -/

/-- Two results are related: the same exception, or related values. (Specification.) -/
def Related {X Y : Type} (R : X → Y → Prop) : Except PyErr X → Except PyErr Y → Prop
  | .ok x, .ok y => R x y
  | .error e, .error e' => e = e'
  | _, _ => False

section
variable {X Y : Type} {R : X → Y → Prop} {f : ℕ → ℝ → ℝ → X → X} {g : ℕ → ℝ → ℝ → Y → Y} {t : Thr}
  (ht : ∀ n, 0 < t.at n) (hR : ∀ nf a b x y, 0 < a → 0 < b → R x y → R (f nf a b x) (g nf a b y))
include ht hR

theorem down_related {sIn sOut : ℝ} (hout : 0 < sOut) (nfOut : Option ℕ) : ∀ (l : List ℕ) (x : X) (y : Y) (s : ℝ)
    (u : Option X) (v : Option Y), 0 < s → R x y → Option.Rel R u v →
    Related R (down f t sIn sOut nfOut l x s u) (down g t sIn sOut nfOut l y s v) := by
  intro l
  induction l with
  | nil =>
    intro x y s u v _ _ huv
    cases huv with
    | none => exact rfl
    | some h => exact h
  | cons nf l ih =>
    intro x y s u v hs hxy huv
    unfold down
    by_cases h1 : sIn ≤ t.at nf
    · rw [if_pos h1, if_pos h1]; exact ih x y s u v hs hxy huv
    · rw [if_neg h1, if_neg h1]
      dsimp only
      generalize hst : (if nfOut = some nf then sOut else max (t.at nf) sOut) = stop
      have hpos : 0 < stop := by
        rw [← hst]; split
        · exact hout
        · exact lt_max_of_lt_right hout
      have h := hR nf s stop x y hs hpos hxy
      by_cases h2 : stop = sOut
      · rw [if_pos h2, if_pos h2]; exact h
      · rw [if_neg h2, if_neg h2]; exact ih _ _ _ _ _ (ht nf) h (.some h)

theorem up_related {sIn sOut : ℝ} (hout : 0 < sOut) : ∀ (l : List ℕ) (x : X) (y : Y) (s : ℝ)
    (u : Option X) (v : Option Y), 0 < s → R x y → Option.Rel R u v →
    Related R (up f t sIn sOut l x s u) (up g t sIn sOut l y s v) := by
  intro l
  induction l with
  | nil =>
    intro x y s u v _ _ huv
    cases huv with
    | none => exact rfl
    | some h => exact h
  | cons nf l ih =>
    intro x y s u v hs hxy huv
    unfold up
    by_cases h1 : nf < 6 ∧ t.at (nf + 1) ≤ sIn
    · rw [if_pos h1, if_pos h1]; exact ih x y s u v hs hxy huv
    · rw [if_neg h1, if_neg h1]
      dsimp only
      have hpos : 0 < upStop t nf sOut := by
        unfold upStop; split
        · exact lt_min (ht _) hout
        · exact hout
      have h := hR nf s (upStop t nf sOut) x y hs hpos hxy
      by_cases h2 : upStop t nf sOut = sOut
      · rw [if_pos h2, if_pos h2]; exact h
      · rw [if_neg h2, if_neg h2]; exact ih _ _ _ _ _ (ht (nf + 1)) h (.some h)

theorem evolve_related {sIn sOut : ℝ} (hin : 0 < sIn) (nfOut : Option ℕ) {x : X} {y : Y} (h : R x y) :
    Related R (evolve f t sIn sOut nfOut x) (evolve g t sIn sOut nfOut y) := by
  unfold evolve evolve'
  by_cases h1 : sIn = sOut
  · rw [if_pos h1, if_pos h1]; exact h
  rw [if_neg h1, if_neg h1]
  by_cases h2 : sOut < 1 / 10
  · rw [if_pos h2, if_pos h2]; exact rfl
  rw [if_neg h2, if_neg h2]
  have hout : 0 < sOut := lt_of_lt_of_le (by norm_num) (not_lt.1 h2)
  by_cases h3 : sOut < sIn
  · rw [if_pos h3, if_pos h3]; exact down_related ht hR hout nfOut _ _ _ _ _ _ hin h .none
  · rw [if_neg h3, if_neg h3]; exact up_related ht hR hout _ _ _ _ _ _ hin h .none
end

end Verif.Rge
