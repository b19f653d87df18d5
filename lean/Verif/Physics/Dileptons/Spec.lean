import Verif.Physics.Dileptons.Model
import Mathlib.Analysis.SpecialFunctions.Integrals.Basic
/-!
# Specification: scattering of massless fermions through a contact interaction

Standard textbook facts, written without reference to the code: helicity amplitudes for `q(p₁) q̄(p₂) → ℓ⁻ ℓ⁺` (or `ℓ ν̄`)
as functions of the cosine `c` of the scattering angle, averaged over spins and colours, with the flux factor
`1/(32 π ŝ)`; and the decomposition of the gauge-invariant operators of the SMEFT into fields of definite charge.
-/
set_option linter.unusedVariables false
set_option linter.unusedSimpArgs false
namespace Verif.Dileptons
open Complex MeasureTheory

local notation "conj" => starRingEnd ℂ

/-- The coefficients of the contact interactions that contribute to one process: four with currents (chirality of the
lepton, then of the quark), scalar and tensor ones, and the scalar and tensor ones of the Hermitian conjugate operators.
(Specification.) -/
structure Contact where
  VLL : ℂ
  VLR : ℂ
  VRL : ℂ
  VRR : ℂ
  SRL : ℂ
  SRR : ℂ
  TRR : ℂ
  SRL' : ℂ
  SRR' : ℂ
  TRR' : ℂ

/-- The sum of the squared helicity amplitudes. (Specification.) -/
noncomputable def msq (sh c : ℝ) (a : Contact) : ℝ :=
  ‖((sh * (1 + c) : ℝ) : ℂ) * a.VLL‖ ^ 2 + ‖((sh * (1 + c) : ℝ) : ℂ) * a.VRR‖ ^ 2
  + ‖((sh * (1 - c) : ℝ) : ℂ) * a.VLR‖ ^ 2 + ‖((sh * (1 - c) : ℝ) : ℂ) * a.VRL‖ ^ 2
  + ‖(sh : ℂ) * a.SRL‖ ^ 2 + ‖(sh : ℂ) * (a.SRR + ((4 * c : ℝ) : ℂ) * a.TRR)‖ ^ 2
  + ‖(sh : ℂ) * a.SRL'‖ ^ 2 + ‖(sh : ℂ) * (a.SRR' + ((4 * c : ℝ) : ℂ) * a.TRR')‖ ^ 2

/-- `dσ/dcosθ`: flux factor, average over the spins and colours of the quarks. (Specification.) -/
noncomputable def dsdc (sh c : ℝ) (a : Contact) : ℝ := 1 / (32 * Real.pi * sh) * (1 / 4 * (1 / 3) * msq sh c a)

theorem dsdc_poly (sh c : ℝ) (a : Contact) : dsdc sh c a = sh / (384 * Real.pi) *
    ((‖a.VLL‖ ^ 2 + ‖a.VRR‖ ^ 2 + ‖a.VLR‖ ^ 2 + ‖a.VRL‖ ^ 2 + ‖a.SRL‖ ^ 2 + ‖a.SRR‖ ^ 2 + ‖a.SRL'‖ ^ 2 + ‖a.SRR'‖ ^ 2)
      + (2 * (‖a.VLL‖ ^ 2 + ‖a.VRR‖ ^ 2 - ‖a.VLR‖ ^ 2 - ‖a.VRL‖ ^ 2) + 8 * ((a.SRR * conj a.TRR).re + (a.SRR' * conj a.TRR').re)) * c
      + (‖a.VLL‖ ^ 2 + ‖a.VRR‖ ^ 2 + ‖a.VLR‖ ^ 2 + ‖a.VRL‖ ^ 2 + 16 * ‖a.TRR‖ ^ 2 + 16 * ‖a.TRR'‖ ^ 2) * c ^ 2) := by
  have e : ∀ S T : ℂ, ‖S + ((4 * c : ℝ) : ℂ) * T‖ ^ 2 = ‖S‖ ^ 2 + 8 * c * (S * conj T).re + 16 * c ^ 2 * ‖T‖ ^ 2 := by
    intro S T
    simp only [Complex.sq_norm, normSq_apply, add_re, add_im, mul_re, mul_im, ofReal_re, ofReal_im, conj_re, conj_im]; ring
  unfold dsdc msq
  simp only [norm_mul, mul_pow, e, Complex.norm_real, Real.norm_eq_abs, sq_abs]
  by_cases h : sh = 0
  · subst h; simp
  · field_simp; ring

theorem int_poly (A B D a b : ℝ) : ∫ c in a..b, (A + B * c + D * c ^ 2) = A * (b - a) + B * (b ^ 2 - a ^ 2) / 2 + D * (b ^ 3 - a ^ 3) / 3 := by
  have h : ∀ x ∈ Set.uIcc a b, HasDerivAt (fun c => A * c + B * c ^ 2 / 2 + D * c ^ 3 / 3) (A + B * x + D * x ^ 2) x := by
    intro x _
    have := (((hasDerivAt_id x).const_mul A).add (((hasDerivAt_pow 2 x).const_mul B).div_const 2)).add (((hasDerivAt_pow 3 x).const_mul D).div_const 3)
    refine this.congr_deriv ?_
    simp; ring
  rw [intervalIntegral.integral_eq_sub_of_hasDerivAt h (by apply Continuous.intervalIntegrable; fun_prop)]
  ring

theorem dsdc_int (sh a b : ℝ) (k : Contact) : ∫ c in a..b, dsdc sh c k = sh / (384 * Real.pi) *
    ((‖k.VLL‖ ^ 2 + ‖k.VRR‖ ^ 2 + ‖k.VLR‖ ^ 2 + ‖k.VRL‖ ^ 2 + ‖k.SRL‖ ^ 2 + ‖k.SRR‖ ^ 2 + ‖k.SRL'‖ ^ 2 + ‖k.SRR'‖ ^ 2) * (b - a)
      + (2 * (‖k.VLL‖ ^ 2 + ‖k.VRR‖ ^ 2 - ‖k.VLR‖ ^ 2 - ‖k.VRL‖ ^ 2) + 8 * ((k.SRR * conj k.TRR).re + (k.SRR' * conj k.TRR').re)) * (b ^ 2 - a ^ 2) / 2
      + (‖k.VLL‖ ^ 2 + ‖k.VRR‖ ^ 2 + ‖k.VLR‖ ^ 2 + ‖k.VRL‖ ^ 2 + 16 * ‖k.TRR‖ ^ 2 + 16 * ‖k.TRR'‖ ^ 2) * (b ^ 3 - a ^ 3) / 3) := by
  simp only [dsdc_poly]
  rw [intervalIntegral.integral_const_mul, int_poly]

theorem msq_nonneg (sh c : ℝ) (a : Contact) : 0 ≤ msq sh c a := by unfold msq; positivity

theorem dsdc_nonneg {sh : ℝ} (h : 0 ≤ sh) (c : ℝ) (a : Contact) : 0 ≤ dsdc sh c a := by
  have := msq_nonneg sh c a
  have := Real.pi_pos
  unfold dsdc; positivity

theorem dsdc_cont (sh : ℝ) (a : Contact) : Continuous fun c => dsdc sh c a := by
  simp only [dsdc_poly]; fun_prop

/-! ## Gauge-invariant operators -/

/-- The Pauli matrices. (Specification.) -/
noncomputable def pauli : Fin 3 → Fin 2 → Fin 2 → ℂ
  | 0, 0, 1 => 1
  | 0, 1, 0 => 1
  | 1, 0, 1 => -I
  | 1, 1, 0 => I
  | 2, 0, 0 => 1
  | 2, 1, 1 => -1
  | _, _, _ => 0

/-- The antisymmetric tensor with `ε₀₁ = 1`. (Specification.) -/
def eps : Fin 2 → Fin 2 → ℂ
  | 0, 1 => 1
  | 1, 0 => -1
  | _, _ => 0

/-- Products of quark fields of definite charge and mass: `uu k l = ū_k … u_l`, and so on. (Specification.) -/
structure Bilin where
  uu : Fin 3 → Fin 3 → ℂ
  ud : Fin 3 → Fin 3 → ℂ
  du : Fin 3 → Fin 3 → ℂ
  dd : Fin 3 → Fin 3 → ℂ

/-- The product `q̄_m^c … q_n^d` of components of the doublets `q_m = (u_m, Σ_l V_ml d_l)`. (Specification.) -/
noncomputable def dbl (V : Fin 3 → Fin 3 → ℂ) (b : Bilin) (m n : Fin 3) : Fin 2 → Fin 2 → ℂ
  | 0, 0 => b.uu m n
  | 0, 1 => ∑ l, V n l * b.ud m l
  | 1, 0 => ∑ k, conj (V m k) * b.du k n
  | 1, 1 => ∑ k, ∑ l, conj (V m k) * V n l * b.dd k l

/-- The sum of the operators `O_lq^(1)` and `O_lq^(3)` with their coefficients: `J i j a b` is the product
`l̄_i^a … l_j^b` of components of the lepton doublets `(ν, e)`. (Specification.) -/
noncomputable def lagLq (C : Smeft) (V : Fin 3 → Fin 3 → ℂ) (J : Fin 3 → Fin 3 → Fin 2 → Fin 2 → ℂ) (b : Bilin) : ℂ :=
  ∑ i, ∑ j, ∑ m, ∑ n,
    (C.lq1 i j m n * (∑ a, J i j a a) * (∑ c, dbl V b m n c c)
      + C.lq3 i j m n * ∑ r, (∑ a, ∑ a', pauli r a a' * J i j a a') * (∑ c, ∑ c', pauli r c c' * dbl V b m n c c'))

/-- The operator `O_qe`: `E i j = ē_i … e_j` (right-handed). (Specification.) -/
noncomputable def lagQe (C : Smeft) (V : Fin 3 → Fin 3 → ℂ) (E : Fin 3 → Fin 3 → ℂ) (b : Bilin) : ℂ :=
  ∑ m, ∑ n, ∑ i, ∑ j, C.qe m n i j * (∑ c, dbl V b m n c c) * E i j

/-- The operator `O_ledq = (l̄^a e)(d̄ q^a)`: `S i j a = l̄_i^a e_j`. (Specification.) -/
noncomputable def lagLedq (C : Smeft) (V : Fin 3 → Fin 3 → ℂ) (S : Fin 3 → Fin 3 → Fin 2 → ℂ) (b : Bilin) : ℂ :=
  ∑ i, ∑ j, ∑ k, ∑ m, C.ledq i j k m * (S i j 0 * b.du k m + S i j 1 * ∑ l, V m l * b.dd k l)

/-- An operator `(l̄^a e) ε_ab (q̄^b u)` with coefficients `c`: `S i j a = l̄_i^a … e_j`. (Specification.) -/
noncomputable def lagLequ (c : Arr) (V : Fin 3 → Fin 3 → ℂ) (S : Fin 3 → Fin 3 → Fin 2 → ℂ) (b : Bilin) : ℂ :=
  ∑ i, ∑ j, ∑ m, ∑ k, c i j m k * ∑ a, ∑ a', S i j a * eps a a' * (match a' with | 0 => b.uu m k | 1 => ∑ l, conj (V m l) * b.du l k)

end Verif.Dileptons
