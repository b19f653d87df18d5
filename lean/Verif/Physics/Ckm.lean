import Mathlib.Analysis.SpecialFunctions.Complex.Arg
import Mathlib.Analysis.SpecialFunctions.Complex.Log
import Mathlib.LinearAlgebra.UnitaryGroup
import Mathlib.Tactic.FieldSimp
import Mathlib.Tactic.Linarith
import Mathlib.Tactic.LinearCombination
import Verif.Py.Dict
import Verif.Py.ExceptLemmas
/-!
# CKM angles and combinations (`flavio/physics/ckm.py`)

The CKM matrix itself comes from the external package `ckmutil`; here it is an arbitrary complex 3×3
matrix (`get_ckm(par)`).  `cmath.phase` is `Complex.arg`, with values in `(-π, π]`.  Division by zero
(numpy: `nan` with a warning) is excluded by hypotheses.
-/
set_option linter.unusedVariables false
namespace Verif.Ckm
open Verif.Py Complex
open scoped ComplexConjugate

/-- A complex 3×3 matrix. (Used for `angleBeta`, /repo/flavio/physics/ckm.py:62-66.) -/
abbrev Mat := Matrix (Fin 3) (Fin 3) ℂ

/-- `get_ckmangle_beta`.  /repo/flavio/physics/ckm.py:62-66. -/
noncomputable def angleBeta (V : Mat) : ℝ := arg (-V 1 0 * conj (V 1 2) / V 2 0 / conj (V 2 2))

/-- `get_ckmangle_alpha`.  /repo/flavio/physics/ckm.py:68-72. -/
noncomputable def angleAlpha (V : Mat) : ℝ := arg (-V 2 0 * conj (V 2 2) / V 0 0 / conj (V 0 2))

/-- `get_ckmangle_gamma`.  /repo/flavio/physics/ckm.py:74-78. -/
noncomputable def angleGamma (V : Mat) : ℝ := arg (-V 0 0 * conj (V 0 2) / V 1 0 / conj (V 1 2))

/-- `xi_kl_ij`.  /repo/flavio/physics/ckm.py:82-84. -/
noncomputable def xiKlIj (V : Mat) (k l i j : Fin 3) : ℂ := V k i * conj (V l j)

/-- `_q_dict_u`.  /repo/flavio/physics/ckm.py:86. -/
def qDictU : Dict Char (Fin 3) := [('u', 0), ('c', 1), ('t', 2)]

/-- `_q_dict_d`.  /repo/flavio/physics/ckm.py:87. -/
def qDictD : Dict Char (Fin 3) := [('d', 0), ('s', 1), ('b', 2)]

/-- `bc[n]` of a string. (Used for `xi`, /repo/flavio/physics/ckm.py:89-114.) -/
def charAt (bc : List Char) (n : Nat) : Except PyErr Char :=
  match bc[n]? with
  | some c => .ok c
  | none => .error .indexError

/-- `xi` (the argument `a` is a one-character string; other strings raise `KeyError` too).
/repo/flavio/physics/ckm.py:89-114. -/
noncomputable def xi (a : Char) (bc : List Char) : Except PyErr (Mat → ℂ) :=
  match Dict.get? qDictU a with
  | some kl =>
    charAt bc 0 >>= fun b => Dict.getItem qDictD b >>= fun i =>
    charAt bc 1 >>= fun c => Dict.getItem qDictD c >>= fun j =>
      .ok fun V => xiKlIj V kl kl i j
  | none =>
    Dict.getItem qDictD a >>= fun ij =>
    charAt bc 0 >>= fun b => Dict.getItem qDictU b >>= fun k =>
    charAt bc 1 >>= fun c => Dict.getItem qDictU c >>= fun l =>
      .ok fun V => xiKlIj V k l ij ij

/-! ## Angles -/

/-- The three sides of the unitarity triangle: `V_qd V_qb*` for q = u, c, t. (Specification.) -/
def side (V : Mat) (q : Fin 3) : ℂ := V q 0 * conj (V q 2)

theorem angleBeta_eq (V : Mat) : angleBeta V = arg (-(side V 1 / side V 2)) := by
  unfold angleBeta side; congr 1; rw [div_div, neg_mul, neg_div]
theorem angleAlpha_eq (V : Mat) : angleAlpha V = arg (-(side V 2 / side V 0)) := by
  unfold angleAlpha side; congr 1; rw [div_div, neg_mul, neg_div]
theorem angleGamma_eq (V : Mat) : angleGamma V = arg (-(side V 0 / side V 1)) := by
  unfold angleGamma side; congr 1; rw [div_div, neg_mul, neg_div]

/-- **C65 (sum of the angles).** For every matrix with non-zero entries in the first and third column,
`α + β + γ = π` modulo `2π`. -/
theorem C65_angles_sum (V : Mat) (h : ∀ q, V q 0 ≠ 0 ∧ V q 2 ≠ 0) :
    ∃ n : ℤ, angleAlpha V + angleBeta V + angleGamma V = Real.pi + 2 * Real.pi * n := by
  have hs : ∀ q, side V q ≠ 0 := fun q =>
    mul_ne_zero (h q).1 ((map_ne_zero (starRingEnd ℂ)).2 (h q).2)
  have h0 := hs 0
  have h1 := hs 1
  have h2 := hs 2
  have key : (((angleAlpha V + angleBeta V + angleGamma V : ℝ)) : Real.Angle) = (Real.pi : ℝ) := by
    rw [Real.Angle.coe_add, Real.Angle.coe_add, angleAlpha_eq, angleBeta_eq, angleGamma_eq,
      ← arg_mul_coe_angle (neg_ne_zero.2 (div_ne_zero h2 h0)) (neg_ne_zero.2 (div_ne_zero h1 h2)),
      ← arg_mul_coe_angle (mul_ne_zero (neg_ne_zero.2 (div_ne_zero h2 h0))
        (neg_ne_zero.2 (div_ne_zero h1 h2))) (neg_ne_zero.2 (div_ne_zero h0 h1))]
    have : -(side V 2 / side V 0) * -(side V 1 / side V 2) * -(side V 0 / side V 1) = -1 := by
      field_simp
    rw [this, arg_neg_one]
  rw [Real.Angle.angle_eq_iff_two_pi_dvd_sub] at key
  obtain ⟨n, hn⟩ := key
  exact ⟨n, by linarith⟩

/-- Unitarity of the first and third column is the closure of the triangle. -/
theorem triangle_closes (V : Mat) (hV : V ∈ Matrix.unitaryGroup (Fin 3) ℂ) :
    side V 0 + side V 1 + side V 2 = 0 := by
  have h := Matrix.mem_unitaryGroup_iff'.1 hV
  have h' := congrFun (congrFun h 2) 0
  simp only [Matrix.mul_apply, Matrix.star_apply, Fin.sum_univ_three] at h'
  unfold side
  have e : (1 : Mat) 2 0 = 0 := by simp
  rw [e] at h'
  simp only [RCLike.star_def] at h'
  linear_combination h'

theorem int_lt_of {n k : ℤ} {S : ℝ} (hn : S = Real.pi + 2 * Real.pi * n)
    (h : S < Real.pi + 2 * Real.pi * k) : n < k := by
  have : 2 * Real.pi * n < 2 * Real.pi * k := by linarith
  exact_mod_cast lt_of_mul_lt_mul_left this (by have := Real.pi_pos; positivity)

theorem lt_int_of {n k : ℤ} {S : ℝ} (hn : S = Real.pi + 2 * Real.pi * n)
    (h : Real.pi + 2 * Real.pi * k < S) : k < n := by
  have : 2 * Real.pi * k < 2 * Real.pi * n := by linarith
  exact_mod_cast lt_of_mul_lt_mul_left this (by have := Real.pi_pos; positivity)

/-- Sign of the imaginary part of a ratio. -/
theorem im_div_eq (z w : ℂ) : (-(z / w)).im = (w.im * z.re - w.re * z.im) / normSq w := by
  rw [neg_im, div_im]; ring

/-- **C65 (triangle).** For a unitary matrix with non-zero entries, the three angles are the (signed)
angles of a triangle: all have the same sign, and their sum is exactly `π` if `J ≥ 0`, `-π` otherwise,
where `J = Im(V_ud V_ub* (V_td V_tb*)*)` has the sign of the Jarlskog invariant. -/
theorem C65_angles_triangle (V : Mat) (hV : V ∈ Matrix.unitaryGroup (Fin 3) ℂ)
    (h : ∀ q, V q 0 ≠ 0 ∧ V q 2 ≠ 0) :
    (0 < (V 0 0 * conj (V 0 2) * conj (V 2 0 * conj (V 2 2))).im →
      (0 < angleAlpha V ∧ 0 < angleBeta V ∧ 0 < angleGamma V) ∧
      angleAlpha V + angleBeta V + angleGamma V = Real.pi) ∧
    ((V 0 0 * conj (V 0 2) * conj (V 2 0 * conj (V 2 2))).im < 0 →
      (angleAlpha V < 0 ∧ angleBeta V < 0 ∧ angleGamma V < 0) ∧
      angleAlpha V + angleBeta V + angleGamma V = -Real.pi) ∧
    ((V 0 0 * conj (V 0 2) * conj (V 2 0 * conj (V 2 2))).im = 0 →
      (0 ≤ angleAlpha V ∧ 0 ≤ angleBeta V ∧ 0 ≤ angleGamma V) ∧
      angleAlpha V + angleBeta V + angleGamma V = Real.pi) := by
  have hpi := Real.pi_pos
  obtain ⟨n, hn⟩ := C65_angles_sum V h
  have hs : ∀ q, side V q ≠ 0 := fun q =>
    mul_ne_zero (h q).1 ((map_ne_zero (starRingEnd ℂ)).2 (h q).2)
  have n0 : 0 < normSq (side V 0) := normSq_pos.2 (hs 0)
  have n1 : 0 < normSq (side V 1) := normSq_pos.2 (hs 1)
  have n2 : 0 < normSq (side V 2) := normSq_pos.2 (hs 2)
  have hcl := triangle_closes V hV
  have hJ : (V 0 0 * conj (V 0 2) * conj (V 2 0 * conj (V 2 2))).im = (side V 0 * conj (side V 2)).im := rfl
  rw [hJ, mul_im, conj_re, conj_im]
  rw [angleAlpha_eq, angleBeta_eq, angleGamma_eq] at hn ⊢
  have ia := im_div_eq (side V 2) (side V 0)
  have ib := im_div_eq (side V 1) (side V 2)
  have ig := im_div_eq (side V 0) (side V 1)
  generalize side V 0 = a at *
  generalize side V 1 = b at *
  generalize side V 2 = c at *
  have ra : a.re + b.re + c.re = 0 := by simpa using congrArg re hcl
  have rb : a.im + b.im + c.im = 0 := by simpa using congrArg im hcl
  have eb : b.re = -a.re - c.re := by linarith
  have eb' : b.im = -a.im - c.im := by linarith
  set J := a.re * -c.im + a.im * c.re with hJd
  have ka : a.im * c.re - a.re * c.im = J := by rw [hJd]; ring
  have kb : c.im * b.re - c.re * b.im = J := by rw [hJd, eb, eb']; ring
  have kg : b.im * a.re - b.re * a.im = J := by rw [hJd, eb, eb']; ring
  rw [ka] at ia
  rw [kb] at ib
  rw [kg] at ig
  have ub : ∀ z : ℂ, arg z ≤ Real.pi := arg_le_pi
  have lb : ∀ z : ℂ, -Real.pi < arg z := neg_pi_lt_arg
  have hA := ub (-(c / a)); have hB := ub (-(b / c)); have hG := ub (-(a / b))
  have hA' := lb (-(c / a)); have hB' := lb (-(b / c)); have hG' := lb (-(a / b))
  refine ⟨fun hj => ?_, fun hj => ?_, fun hj => ?_⟩
  · have p : ∀ z : ℂ, 0 < z.im → 0 < arg z ∧ arg z < Real.pi := fun z hz =>
      ⟨lt_of_le_of_ne (arg_nonneg_iff.2 hz.le) (fun h => by
          have := (arg_eq_zero_iff.1 h.symm).2; linarith),
        arg_lt_pi_iff.2 (Or.inr hz.ne')⟩
    obtain ⟨a1, a2⟩ := p _ (by rw [ia]; exact div_pos hj n0)
    obtain ⟨b1, b2⟩ := p _ (by rw [ib]; exact div_pos hj n2)
    obtain ⟨g1, g2⟩ := p _ (by rw [ig]; exact div_pos hj n1)
    refine ⟨⟨a1, b1, g1⟩, ?_⟩
    have h1 : -1 < n := lt_int_of hn (by push_cast; linarith)
    have h2 : n < 1 := int_lt_of hn (by push_cast; linarith)
    have : n = 0 := by omega
    rw [hn, this]; simp
  · have p : ∀ z : ℂ, z.im < 0 → arg z < 0 := fun z hz => arg_neg_iff.2 hz
    have a1 := p _ (by rw [ia]; exact div_neg_of_neg_of_pos hj n0)
    have b1 := p _ (by rw [ib]; exact div_neg_of_neg_of_pos hj n2)
    have g1 := p _ (by rw [ig]; exact div_neg_of_neg_of_pos hj n1)
    refine ⟨⟨a1, b1, g1⟩, ?_⟩
    have h1 : -2 < n := lt_int_of hn (by push_cast; linarith)
    have h2 : n < 0 := int_lt_of hn (by push_cast; linarith)
    have : n = -1 := by omega
    rw [hn, this]; push_cast; ring
  · rw [hj, zero_div] at ia ib ig
    have p : ∀ z : ℂ, z.im = 0 → 0 ≤ arg z := fun z hz => arg_nonneg_iff.2 hz.ge
    have a1 := p _ ia
    have b1 := p _ ib
    have g1 := p _ ig
    refine ⟨⟨a1, b1, g1⟩, ?_⟩
    have h1 : -1 < n := lt_int_of hn (by push_cast; linarith)
    -- not all three are π
    have h2 : n < 1 := by
      apply int_lt_of hn
      push_cast
      by_contra hc
      push Not at hc
      have eA : arg (-(c / a)) = Real.pi := by linarith
      have eB : arg (-(b / c)) = Real.pi := by linarith
      rw [arg_eq_pi_iff] at eA eB
      -- c/a and b/c are positive reals, so 1 + b/c·(c/a) + c/a > 0
      have hx : c / a = ((c / a).re : ℂ) := by
        apply Complex.ext
        · simp
        · have := eA.2; rw [neg_im] at this; simp; linarith
      have hy : b / c = ((b / c).re : ℂ) := by
        apply Complex.ext
        · simp
        · have := eB.2; rw [neg_im] at this; simp; linarith
      have px : 0 < (c / a).re := by have := eA.1; rw [neg_re] at this; linarith
      have py : 0 < (b / c).re := by have := eB.1; rw [neg_re] at this; linarith
      have hz : (1 : ℂ) + (b / c) * (c / a) + c / a = 0 := by
        have : a ≠ 0 := normSq_pos.1 n0
        have : c ≠ 0 := normSq_pos.1 n2
        field_simp
        rw [hcl, mul_zero]
      rw [hx, hy] at hz
      have hz' := congrArg re hz
      simp only [add_re, mul_re, ofReal_re, ofReal_im, one_re, zero_re] at hz'
      have := mul_pos py px
      linarith
    have : n = 0 := by omega
    rw [hn, this]; simp

/-- **C65 (phase conventions).** The angles do not change when the quark fields are rephased:
`V_ij → e^{iφ_i} V_ij e^{iψ_j}`. -/
theorem C65_rephasing (V : Mat) (p q : Fin 3 → ℂ) (hp : ∀ i, ‖p i‖ = 1) (hq : ∀ i, ‖q i‖ = 1) :
    let W : Mat := fun i j => p i * V i j * q j
    angleAlpha W = angleAlpha V ∧ angleBeta W = angleBeta V ∧ angleGamma W = angleGamma V := by
  intro W
  have hu : ∀ z : ℂ, ‖z‖ = 1 → z * conj z = 1 := by
    intro z hz
    rw [mul_conj, normSq_eq_norm_sq, hz]; simp
  have hs : ∀ k, side W k = side V k * (q 0 * conj (q 2)) := by
    intro k
    show p k * V k 0 * q 0 * conj (p k * V k 2 * q 2) = V k 0 * conj (V k 2) * (q 0 * conj (q 2))
    rw [map_mul, map_mul]
    linear_combination (V k 0 * q 0 * conj (V k 2) * conj (q 2)) * hu (p k) (hp k)
  have hne : q 0 * conj (q 2) ≠ 0 := by
    intro h0
    have : ‖q 0 * conj (q 2)‖ = 1 := by rw [norm_mul, RCLike.norm_conj, hq, hq, one_mul]
    rw [h0, norm_zero] at this
    exact zero_ne_one this
  rw [angleAlpha_eq, angleAlpha_eq, angleBeta_eq, angleBeta_eq, angleGamma_eq, angleGamma_eq]
  simp only [hs, mul_div_mul_right _ _ hne, and_self]

/-- **C65 (CP conjugation).** Complex conjugation of the matrix flips the sign of every angle (other than
an angle of exactly `π`, which is its own negative modulo `2π`). -/
theorem C65_cp (V : Mat) :
    (angleAlpha V ≠ Real.pi → angleAlpha (V.map conj) = -angleAlpha V) ∧
    (angleBeta V ≠ Real.pi → angleBeta (V.map conj) = -angleBeta V) ∧
    (angleGamma V ≠ Real.pi → angleGamma (V.map conj) = -angleGamma V) := by
  have hs : ∀ k, side (V.map conj) k = conj (side V k) := by
    intro k
    show conj (V k 0) * conj (conj (V k 2)) = conj (V k 0 * conj (V k 2))
    rw [map_mul]
  have ha : ∀ z w : ℂ, arg (-(z / w)) ≠ Real.pi → arg (-(conj z / conj w)) = -arg (-(z / w)) := by
    intro z w h
    have : -(conj z / conj w) = conj (-(z / w)) := by rw [map_neg, map_div₀]
    rw [this, arg_conj, if_neg h]
  simp only [angleAlpha_eq, angleBeta_eq, angleGamma_eq, hs]
  exact ⟨ha _ _, ha _ _, ha _ _⟩

/-! ## `xi` -/

/-- The Kronecker delta. (Specification.) -/
def kron (b c : Char) : ℂ := if b = c then 1 else 0

/-- **C65 (unitarity of `xi`).** For a unitary matrix and two down-type flavours, the sum of `xi(a, bc)`
over the up-type flavours is 1 if they are equal and 0 otherwise; and with up and down exchanged. -/
theorem C65_xi_unitarity (V : Mat) (hV : V ∈ Matrix.unitaryGroup (Fin 3) ℂ) (b c : Char) :
    (b ∈ ['d', 's', 'b'] → c ∈ ['d', 's', 'b'] → ∃ fu fc ft,
      xi 'u' [b, c] = .ok fu ∧ xi 'c' [b, c] = .ok fc ∧ xi 't' [b, c] = .ok ft ∧
      fu V + fc V + ft V = kron b c) ∧
    (b ∈ ['u', 'c', 't'] → c ∈ ['u', 'c', 't'] → ∃ fd fs fb,
      xi 'd' [b, c] = .ok fd ∧ xi 's' [b, c] = .ok fs ∧ xi 'b' [b, c] = .ok fb ∧
      fd V + fs V + fb V = kron b c) := by
  have col : ∀ i j : Fin 3, V 0 i * conj (V 0 j) + V 1 i * conj (V 1 j) + V 2 i * conj (V 2 j) =
      (1 : Mat) j i := by
    intro i j
    have h' := congrFun (congrFun (Matrix.mem_unitaryGroup_iff'.1 hV) j) i
    simp only [Matrix.mul_apply, Matrix.star_apply, Fin.sum_univ_three, RCLike.star_def] at h'
    rw [← h']; ring
  have row : ∀ k l : Fin 3, V k 0 * conj (V l 0) + V k 1 * conj (V l 1) + V k 2 * conj (V l 2) =
      (1 : Mat) k l := by
    intro k l
    have h' := congrFun (congrFun (Matrix.mem_unitaryGroup_iff.1 hV) k) l
    simp only [Matrix.mul_apply, Matrix.star_apply, Fin.sum_univ_three, RCLike.star_def] at h'
    rw [← h']
  constructor
  · intro hb hc
    simp only [List.mem_cons, List.not_mem_nil, or_false] at hb hc
    rcases hb with rfl | rfl | rfl <;> rcases hc with rfl | rfl | rfl <;>
      exact ⟨_, _, _, rfl, rfl, rfl, (col _ _).trans (by simp [kron])⟩
  · intro hb hc
    simp only [List.mem_cons, List.not_mem_nil, or_false] at hb hc
    rcases hb with rfl | rfl | rfl <;> rcases hc with rfl | rfl | rfl <;>
      exact ⟨_, _, _, rfl, rfl, rfl, (row _ _).trans (by simp [kron])⟩

/-- The matrix element with the named quarks, `V_{ud}` etc. (Specification.) -/
def Vq (V : Mat) : Char → Char → Option ℂ
  | 'u', 'd' => some (V 0 0) | 'u', 's' => some (V 0 1) | 'u', 'b' => some (V 0 2)
  | 'c', 'd' => some (V 1 0) | 'c', 's' => some (V 1 1) | 'c', 'b' => some (V 1 2)
  | 't', 'd' => some (V 2 0) | 't', 's' => some (V 2 1) | 't', 'b' => some (V 2 2)
  | _, _ => none

/-- **C65 (meaning of `xi`).** `xi(a, bc)` is `V_ab V_ac*` for up-type `a`, `V_ba V_ca*` for down-type
`a`; exchanging the two letters gives the complex conjugate. -/
theorem C65_xi_value (V : Mat) (a b c : Char) :
    (a ∈ ['u', 'c', 't'] → b ∈ ['d', 's', 'b'] → c ∈ ['d', 's', 'b'] →
      ∃ f g v w, xi a [b, c] = .ok f ∧ xi a [c, b] = .ok g ∧ Vq V a b = some v ∧ Vq V a c = some w ∧
        f V = v * conj w ∧ g V = conj (f V)) ∧
    (a ∈ ['d', 's', 'b'] → b ∈ ['u', 'c', 't'] → c ∈ ['u', 'c', 't'] →
      ∃ f g v w, xi a [b, c] = .ok f ∧ xi a [c, b] = .ok g ∧ Vq V b a = some v ∧ Vq V c a = some w ∧
        f V = v * conj w ∧ g V = conj (f V)) := by
  have hg : ∀ z w : ℂ, w * conj z = conj (z * conj w) := by
    intro z w; rw [map_mul, conj_conj, mul_comm]
  constructor
  all_goals
    intro ha hb hc
    simp only [List.mem_cons, List.not_mem_nil, or_false] at ha hb hc
    rcases ha with rfl | rfl | rfl <;> rcases hb with rfl | rfl | rfl <;>
      rcases hc with rfl | rfl | rfl <;>
      exact ⟨_, _, _, _, rfl, rfl, rfl, rfl, rfl, hg _ _⟩

theorem get?_qDictU (a : Char) (h : a ∉ ['u', 'c', 't']) : Dict.get? qDictU a = none :=
  (Dict.get?_eq_none_iff _ _).2 (by simpa [qDictU, Dict.keys] using h)
theorem get?_qDictD (a : Char) (h : a ∉ ['d', 's', 'b']) : Dict.get? qDictD a = none :=
  (Dict.get?_eq_none_iff _ _).2 (by simpa [qDictD, Dict.keys] using h)

/-- **C65 (errors of `xi`).** A letter that is no quark, or a `bc` starting with a letter of the wrong
type, raises `KeyError`; a `bc` that is too short raises `IndexError`. -/
theorem C65_xi_errors (a b : Char) (bc : List Char) :
    (a ∉ ['u', 'c', 't'] → a ∉ ['d', 's', 'b'] → xi a bc = .error .keyError) ∧
    (a ∈ ['u', 'c', 't'] → b ∉ ['d', 's', 'b'] → xi a (b :: bc) = .error .keyError) ∧
    (a ∈ ['d', 's', 'b'] → b ∉ ['u', 'c', 't'] → xi a (b :: bc) = .error .keyError) ∧
    (a ∈ ['u', 'c', 't', 'd', 's', 'b'] → xi a [] = .error .indexError) := by
  refine ⟨fun h1 h2 => ?_, fun h1 h2 => ?_, fun h1 h2 => ?_, fun h => ?_⟩
  · unfold xi Dict.getItem
    rw [get?_qDictU a h1, get?_qDictD a h2]; rfl
  · have hb := get?_qDictD b h2
    simp only [List.mem_cons, List.not_mem_nil, or_false] at h1
    rcases h1 with rfl | rfl | rfl <;>
    · show (Dict.getItem qDictD b >>= _) = _
      unfold Dict.getItem
      rw [hb]; rfl
  · have hb := get?_qDictU b h2
    simp only [List.mem_cons, List.not_mem_nil, or_false] at h1
    rcases h1 with rfl | rfl | rfl <;>
    · show (Dict.getItem qDictU b >>= _) = _
      unfold Dict.getItem
      rw [hb]; rfl
  · simp only [List.mem_cons, List.not_mem_nil, or_false] at h
    rcases h with rfl | rfl | rfl | rfl | rfl | rfl <;> rfl

/-- A unitary matrix with non-zero entries and a non-degenerate triangle exists: the discrete Fourier
transform has `V_ij = ω^{ij}/√3`; here in the form with entries scaled by hand. -/
theorem fourier_unitary : ∃ V : Mat, V ∈ Matrix.unitaryGroup (Fin 3) ℂ ∧ (∀ q, V q 0 ≠ 0 ∧ V q 2 ≠ 0) ∧
    (V 0 0 * conj (V 0 2) * conj (V 2 0 * conj (V 2 2))).im ≠ 0 := by
  set r : ℝ := Real.sqrt 3 with hr
  have hr2 : r * r = 3 := Real.mul_self_sqrt (by norm_num)
  have hr0 : r ≠ 0 := by intro h; rw [h] at hr2; norm_num at hr2
  have hr2c : (r : ℂ) * r = 3 := by exact_mod_cast hr2
  have hr0c : (r : ℂ) ≠ 0 := by exact_mod_cast hr0
  -- ω = (-1 + i√3)/2
  set w : ℂ := ⟨-1 / 2, r / 2⟩ with hw
  have hwc : conj w = ⟨-1 / 2, -(r / 2)⟩ := rfl
  have hww : w * conj w = 1 := by
    rw [hwc, hw]; apply Complex.ext <;> simp <;> nlinarith
  have hsum : 1 + w + conj w = 0 := by
    rw [hwc, hw]; apply Complex.ext <;> simp; norm_num
  have hw2 : w * w = conj w := by
    rw [hwc, hw]; apply Complex.ext <;> simp <;> nlinarith
  have hw2' : conj w * conj w = w := by
    have := congrArg conj hw2; simpa using this
  have hw0 : w ≠ 0 := by intro h; rw [h] at hww; simp at hww
  have hwc0 : conj w ≠ 0 := by intro h; rw [h] at hww; simp at hww
  set V : Mat := !![1 / (r : ℂ), 1 / r, 1 / r; 1 / r, w / r, conj w / r; 1 / r, conj w / r, w / r] with hVd
  refine ⟨V, ?_, ?_, ?_⟩
  · rw [Matrix.mem_unitaryGroup_iff]
    ext i j
    fin_cases i <;> fin_cases j <;>
      (simp [hVd, Matrix.mul_apply, Fin.sum_univ_three]
       field_simp
       first
        | linear_combination hsum
        | linear_combination -hr2c
        | linear_combination 2 * hww - hr2c
        | linear_combination hsum + hw2 + hw2')
  · intro q
    fin_cases q <;> simp [hVd, hr0c, hw0, hwc0]
  · have e : V 0 0 * conj (V 0 2) * conj (V 2 0 * conj (V 2 2)) = w / (r * r * r * r) := by
      simp [hVd]
      field_simp
    have e4 : (r : ℂ) * r * r * r = ((9 : ℝ) : ℂ) := by
      push_cast
      linear_combination (r * r + 3 : ℂ) * hr2c
    rw [e, e4, div_ofReal_im]
    simp [hw, hr0]

/-- Non-vacuity of the triangle theorems: the standard parametrisation with all sines `3/5` and phase `π/2` is unitary, and its
Jarlskog invariant is positive. -/
example : ∃ V : Mat, V ∈ Matrix.unitaryGroup (Fin 3) ℂ ∧ (∀ q, V q 0 ≠ 0 ∧ V q 2 ≠ 0) ∧
    0 < (V 0 0 * conj (V 0 2) * conj (V 2 0 * conj (V 2 2))).im := by
  refine ⟨!![⟨16/25, 0⟩, ⟨12/25, 0⟩, ⟨0, -3/5⟩; ⟨-12/25, -36/125⟩, ⟨16/25, -27/125⟩, ⟨12/25, 0⟩; ⟨9/25, -48/125⟩, ⟨-12/25, -36/125⟩, ⟨16/25, 0⟩], ?_, ?_, ?_⟩
  · rw [Matrix.mem_unitaryGroup_iff]
    ext i j
    fin_cases i <;> fin_cases j <;> apply Complex.ext <;>
      simp [Matrix.mul_apply, Fin.sum_univ_three, Matrix.star_apply] <;> norm_num
  · intro q
    fin_cases q <;> simp [Complex.ext_iff]
  · simp
    norm_num

end Verif.Ckm
