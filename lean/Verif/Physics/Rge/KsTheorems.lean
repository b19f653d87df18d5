import Verif.Physics.Rge.Model
import Mathlib.Analysis.SpecialFunctions.Log.Deriv
import Mathlib.Analysis.Calculus.ContDiff.RCLike
import Mathlib.Analysis.Asymptotics.Lemmas
set_option linter.unusedVariables false
set_option linter.unusedSimpArgs false
namespace Verif.Rge
open Verif.Py Verif.Running Filter Asymptotics Topology

/-- Which orders are kept: `nl` loops; three loops is the maximum, `nl = -1` keeps nothing, and more negative values
count from the end (Python slice). -/
theorem C121_loops (z3 M Nf asM Mu : ℝ) (a : ℝ) (ha : a = asM / Real.pi) :
    ks2ms z3 M Nf asM Mu 0 = M
    ∧ ks2ms z3 M Nf asM Mu 1 = M * (1 + a * f1 Mu M)
    ∧ ks2ms z3 M Nf asM Mu 2 = M * (1 + a * f1 Mu M + a ^ 2 * f2 z3 Mu M Nf)
    ∧ (∀ nl : ℤ, 3 ≤ nl → ks2ms z3 M Nf asM Mu nl = M * (1 + a * f1 Mu M + a ^ 2 * f2 z3 Mu M Nf + a ^ 3 * f3 z3 Mu M Nf))
    ∧ ks2ms z3 M Nf asM Mu (-1) = 0
    ∧ ks2ms z3 M Nf asM Mu (-2) = ks2ms z3 M Nf asM Mu 2
    ∧ (∀ nl : ℤ, nl ≤ -5 → ks2ms z3 M Nf asM Mu nl = 0) := by
  subst ha
  refine ⟨by simp [ks2ms, sliceSum], by simp [ks2ms, sliceSum], by simp [ks2ms, sliceSum]; ring_nf; simp, ?_, by simp [ks2ms, sliceSum], by simp [ks2ms, sliceSum], ?_⟩
  · intro nl h
    have h0 : (0:ℤ) ≤ nl + 1 := by omega
    obtain ⟨k, hk⟩ : ∃ k : ℕ, (nl + 1).toNat = k + 4 := ⟨(nl + 1).toNat - 4, by omega⟩
    simp only [ks2ms, sliceSum, if_pos h0, hk, List.take_succ_cons, List.take_nil, List.sum_cons, List.sum_nil]
    ring
  · intro nl h
    have h0 : ¬ (0:ℤ) ≤ nl + 1 := by omega
    have hk : (nl + 1 + (4:ℕ)).toNat = 0 := by push_cast; omega
    simp only [ks2ms, sliceSum, if_neg h0, List.length_cons, List.length_nil]
    simp only [show (0 + 1 + 1 + 1 + 1 : ℕ) = 4 from rfl, hk, List.take_zero, List.sum_nil, mul_zero]

/-- One step of the inversion, order by order (with the square at second order). -/
theorem convert_val (z3 m Nf asM Mu M a : ℝ) (ha : a = asM / Real.pi) :
    convert z3 m Nf asM Mu 0 M = m
    ∧ convert z3 m Nf asM Mu 1 M = m * (1 - a * f1 Mu M)
    ∧ convert z3 m Nf asM Mu 2 M = m * (1 - a * f1 Mu M + a ^ 2 * (f1 Mu M ^ 2 - f2 z3 Mu M Nf))
    ∧ (∀ nl : ℤ, 3 ≤ nl → convert z3 m Nf asM Mu nl M = m * (1 - a * f1 Mu M + a ^ 2 * (f1 Mu M ^ 2 - f2 z3 Mu M Nf) - a ^ 3 * f3 z3 Mu M Nf)) := by
  subst ha
  refine ⟨by simp [convert, sliceSum], ?_, ?_, ?_⟩
  · simp [convert, sliceSum]; left; ring
  · simp [convert, sliceSum]; left; ring
  · intro nl h
    have h0 : (0:ℤ) ≤ nl + 1 := by omega
    obtain ⟨k, hk⟩ : ∃ k : ℕ, (nl + 1).toNat = k + 4 := ⟨(nl + 1).toNat - 4, by omega⟩
    simp only [convert, sliceSum, if_pos h0, hk, List.take_succ_cons, List.take_nil, List.sum_cons, List.sum_nil]
    ring

/-- Without loops, or without coupling, both conversions are the identity. -/
theorem C121_identity (z3 M Nf asM Mu : ℝ) (nl : ℤ) (h : 0 ≤ nl) :
    ms2ks z3 M Nf asM Mu 0 = M ∧ ks2ms z3 M Nf asM Mu 0 = M ∧ ks2ms z3 M Nf 0 Mu nl = M ∧ ms2ks z3 M Nf 0 Mu nl = M := by
  have c : ∀ nl : ℤ, 0 ≤ nl → ∀ X, convert z3 M Nf 0 Mu nl X = M := by
    intro nl h X
    obtain ⟨a, b, c, d⟩ := convert_val z3 M Nf 0 Mu X 0 (by simp)
    rcases (show nl = 0 ∨ nl = 1 ∨ nl = 2 ∨ 3 ≤ nl by omega) with rfl | rfl | rfl | h3
    · exact a
    · rw [b]; ring
    · rw [c]; ring
    · rw [d nl h3]; ring
  refine ⟨by simp only [ms2ks, (convert_val z3 M Nf asM Mu _ _ rfl).1], (C121_loops z3 M Nf asM Mu _ rfl).1, ?_, by simp only [ms2ks, c nl h]⟩
  obtain ⟨a, b, cc, d, _⟩ := C121_loops z3 M Nf 0 Mu 0 (by simp)
  rcases (show nl = 0 ∨ nl = 1 ∨ nl = 2 ∨ 3 ≤ nl by omega) with rfl | rfl | rfl | h3
  · exact a
  · rw [b]; ring
  · rw [cc]; ring
  · rw [d nl h3]; ring

theorem f_homog (z3 Mu M Nf t : ℝ) (ht : 0 < t) (hM : M ≠ 0) (hu : Mu ≠ 0) :
    f1 (t * Mu) (t * M) = f1 Mu M ∧ f2 z3 (t * Mu) (t * M) Nf = f2 z3 Mu M Nf ∧ f3 z3 (t * Mu) (t * M) Nf = f3 z3 Mu M Nf := by
  have e1 : t * M / (2 * (t * Mu)) = M / (2 * Mu) := by field_simp
  have ht' := ht.ne'
  refine ⟨?_, ?_, ?_⟩
  · simp only [f1]; field_simp
  · simp only [f2, e1]; field_simp
  · simp only [f3, e1]; field_simp

/-- Units: rescaling mass and cutoff together rescales the converted mass (both directions, any order). -/
theorem C121_units (z3 M Nf asM Mu t : ℝ) (nl : ℤ) (ht : 0 < t) (hM : M ≠ 0) (hu : Mu ≠ 0)
    (h1 : convert z3 M Nf asM Mu nl M ≠ 0) (h2 : convert z3 M Nf asM Mu nl (convert z3 M Nf asM Mu nl M) ≠ 0) :
    ks2ms z3 (t * M) Nf asM (t * Mu) nl = t * ks2ms z3 M Nf asM Mu nl
    ∧ ms2ks z3 (t * M) Nf asM (t * Mu) nl = t * ms2ks z3 M Nf asM Mu nl := by
  have c : ∀ X, X ≠ 0 → convert z3 (t * M) Nf asM (t * Mu) nl (t * X) = t * convert z3 M Nf asM Mu nl X := by
    intro X hX
    obtain ⟨a, b, c⟩ := f_homog z3 Mu X Nf t ht hX hu
    simp only [convert, a, b, c]; ring
  obtain ⟨a, b, d⟩ := f_homog z3 Mu M Nf t ht hM hu
  refine ⟨by simp only [ks2ms, a, b, d]; ring, ?_⟩
  simp only [ms2ks]
  rw [c M hM, c _ h1, c _ h2]

/-! ## The round trip is the identity up to higher orders in the coupling -/

/-- Three fixed-point iterations of `M ↦ m r(a, M)` invert `M ↦ M g(a, M)` up to `O(aⁿ)`, when `r g = 1 + O(aⁿ)`. -/
theorem iterate (m : ℝ) (n : ℕ) (hn : n ≤ 4) (φ ψ χ : ℝ → ℝ) (hφ : ContDiffAt ℝ 1 φ m) (hψ : ContDiffAt ℝ 1 ψ m) (hχ : ContDiffAt ℝ 1 χ m)
    (r g : ℝ → ℝ → ℝ) (hr : ∀ a M, r a M = 1 + a * φ M + a ^ 2 * ψ M + a ^ 3 * χ M)
    (hg : ∀ u : ℝ → ℝ, Tendsto u (𝓝 0) (𝓝 m) → Tendsto (fun a => g a (u a)) (𝓝 0) (𝓝 1))
    (hH : ∀ u : ℝ → ℝ, Tendsto u (𝓝 0) (𝓝 m) → (fun a => r a (u a) * g a (u a) - 1) =O[𝓝 0] (fun a => a ^ n)) :
    (fun a => (m * r a (m * r a (m * r a m))) * g a (m * r a (m * r a (m * r a m))) - m) =O[𝓝 0] (fun a : ℝ => a ^ n) := by
  have pw : ∀ {i j : ℕ}, i ≤ j → (fun a : ℝ => a ^ j) =O[𝓝 0] (fun a : ℝ => a ^ i) := by
    intro i j hij
    obtain ⟨k, rfl⟩ := Nat.exists_eq_add_of_le hij
    have : (fun a : ℝ => a ^ k) =O[𝓝 0] (fun _ => (1:ℝ)) := (continuous_pow k).continuousAt.tendsto.isBigO_one ℝ
    simpa [pow_add] using (isBigO_refl (fun a : ℝ => a ^ i) (𝓝 0)).mul this
  have lip : ∀ F : ℝ → ℝ, ContDiffAt ℝ 1 F m → ∀ u v : ℝ → ℝ, Tendsto u (𝓝 0) (𝓝 m) → Tendsto v (𝓝 0) (𝓝 m) →
      (fun a => F (u a) - F (v a)) =O[𝓝 0] (fun a => u a - v a) := by
    intro F hF u v hu hv
    obtain ⟨K, s, hs, hl⟩ := hF.exists_lipschitzOnWith
    refine IsBigO.of_bound (K : ℝ) ?_
    filter_upwards [hu hs, hv hs] with a ha hb
    have := hl.dist_le_mul (u a) ha (v a) hb
    simpa [Real.dist_eq] using this
  have tF : ∀ F : ℝ → ℝ, ContDiffAt ℝ 1 F m → ∀ u : ℝ → ℝ, Tendsto u (𝓝 0) (𝓝 m) → Tendsto (fun a => F (u a)) (𝓝 0) (𝓝 (F m)) :=
    fun F hF u hu => hF.continuousAt.tendsto.comp hu
  have id0 : Tendsto (fun a : ℝ => a) (𝓝 0) (𝓝 0) := tendsto_id
  -- the iterates stay near m
  have tr : ∀ u : ℝ → ℝ, Tendsto u (𝓝 0) (𝓝 m) → Tendsto (fun a => m * r a (u a)) (𝓝 0) (𝓝 m) := by
    intro u hu
    have h := ((((tendsto_const_nhds (x := (1:ℝ)) (f := 𝓝 (0:ℝ))).add (id0.mul (tF φ hφ u hu))).add ((id0.pow 2).mul (tF ψ hψ u hu))).add
      ((id0.pow 3).mul (tF χ hχ u hu))).const_mul m
    simp only [hr]
    simpa using h
  -- differences contract by a factor a
  have ct : ∀ u v : ℝ → ℝ, Tendsto u (𝓝 0) (𝓝 m) → Tendsto v (𝓝 0) (𝓝 m) → (fun a => r a (u a) - r a (v a)) =O[𝓝 0] (fun a => a * (u a - v a)) := by
    intro u v hu hv
    have h1 : (fun a : ℝ => a) =O[𝓝 0] (fun a : ℝ => a) := isBigO_refl _ _
    have h2 : (fun a : ℝ => a ^ 2) =O[𝓝 0] (fun a : ℝ => a) := by simpa using pw (i := 1) (j := 2) (by norm_num)
    have h3 : (fun a : ℝ => a ^ 3) =O[𝓝 0] (fun a : ℝ => a) := by simpa using pw (i := 1) (j := 3) (by norm_num)
    have := ((h1.mul (lip φ hφ u v hu hv)).add (h2.mul (lip ψ hψ u v hu hv))).add (h3.mul (lip χ hχ u v hu hv))
    refine this.congr_left ?_
    intro a; simp only [hr]; ring
  have c0 : Tendsto (fun _ : ℝ => m) (𝓝 0) (𝓝 m) := tendsto_const_nhds
  have t1 := tr _ c0
  have t2 := tr _ t1
  have t3 := tr _ t2
  have d1 : (fun a => m * r a m - m) =O[𝓝 0] (fun a : ℝ => a ^ 1) := by
    have h1 := (pw (i := 1) (j := 1) le_rfl).const_mul_left (m * φ m)
    have h2 := (pw (i := 1) (j := 2) (by norm_num)).const_mul_left (m * ψ m)
    have h3 := (pw (i := 1) (j := 3) (by norm_num)).const_mul_left (m * χ m)
    refine ((h1.add h2).add h3).congr_left ?_
    intro a; simp only [hr]; ring
  have step : ∀ (u v : ℝ → ℝ) (k : ℕ), Tendsto u (𝓝 0) (𝓝 m) → Tendsto v (𝓝 0) (𝓝 m) → (fun a => u a - v a) =O[𝓝 0] (fun a : ℝ => a ^ k) →
      (fun a => r a (u a) - r a (v a)) =O[𝓝 0] (fun a : ℝ => a ^ (k + 1)) := by
    intro u v k hu hv h
    refine (ct u v hu hv).trans ?_
    have := (isBigO_refl (fun a : ℝ => a) (𝓝 0)).mul h
    refine this.congr_right ?_
    intro a; ring
  have stepm : ∀ (u v : ℝ → ℝ) (k : ℕ), Tendsto u (𝓝 0) (𝓝 m) → Tendsto v (𝓝 0) (𝓝 m) → (fun a => u a - v a) =O[𝓝 0] (fun a : ℝ => a ^ k) →
      (fun a => m * r a (u a) - m * r a (v a)) =O[𝓝 0] (fun a : ℝ => a ^ (k + 1)) := by
    intro u v k hu hv h
    refine ((step u v k hu hv h).const_mul_left m).congr_left ?_
    intro a; ring
  have d2 := stepm _ _ 1 t1 c0 d1
  have d3 := stepm _ _ 2 t2 t1 d2
  have d4 := step _ _ 3 t3 t2 d3
  have g3 : (fun a => g a (m * r a (m * r a (m * r a m)))) =O[𝓝 0] (fun _ => (1:ℝ)) := (hg _ t3).isBigO_one ℝ
  have A := ((d4.mul g3).const_mul_left (-m))
  have B := ((hH _ t3).const_mul_left m)
  have A' : (fun a => -m * ((r a (m * r a (m * r a (m * r a m))) - r a (m * r a (m * r a m))) * g a (m * r a (m * r a (m * r a m))))) =O[𝓝 0] (fun a : ℝ => a ^ n) := by
    refine A.trans ?_
    simpa using pw (i := n) (j := 4) hn
  refine (A'.add B).congr_left ?_
  intro a; ring

theorem f1_smooth (Mu m : ℝ) (hm : m ≠ 0) : ContDiffAt ℝ 1 (fun M => f1 Mu M) m := by
  have h2 : (2:ℝ) * m ^ 2 ≠ 0 := by positivity
  unfold f1
  fun_prop (disch := assumption)
theorem f2_smooth (z3 Mu m Nf : ℝ) (hm : m ≠ 0) (hu : Mu ≠ 0) : ContDiffAt ℝ 1 (fun M => f2 z3 Mu M Nf) m := by
  have h2 : m ^ 2 ≠ 0 := by positivity
  have h3 : (2:ℝ) * Mu ≠ 0 := by positivity
  have h4 : m / (2 * Mu) ≠ 0 := div_ne_zero hm h3
  unfold f2
  fun_prop (disch := assumption)
theorem f3_smooth (z3 Mu m Nf : ℝ) (hm : m ≠ 0) (hu : Mu ≠ 0) : ContDiffAt ℝ 1 (fun M => f3 z3 Mu M Nf) m := by
  have h2 : m ^ 2 ≠ 0 := by positivity
  have h3 : (2:ℝ) * Mu ≠ 0 := by positivity
  have h4 : m / (2 * Mu) ≠ 0 := div_ne_zero hm h3
  unfold f3
  fun_prop (disch := assumption)

/-- Converting an MS-bar mass to the kinetic scheme and back with the same coupling and cutoff returns the same mass up
to `O(α_s²)` at one loop and `O(α_s³)` at two and three loops, for every positive mass and cutoff. -/
theorem C121_round_trip (z3 m Nf Mu : ℝ) (hm : 0 < m) (hu : 0 < Mu) :
    ((fun asM => ks2ms z3 (ms2ks z3 m Nf asM Mu 1) Nf asM Mu 1 - m) =O[𝓝 0] (fun asM : ℝ => asM ^ 2))
    ∧ (∀ nl : ℤ, 2 ≤ nl → (fun asM => ks2ms z3 (ms2ks z3 m Nf asM Mu nl) Nf asM Mu nl - m) =O[𝓝 0] (fun asM : ℝ => asM ^ 3)) := by
  have hpi := Real.pi_pos.ne'
  have s1 := f1_smooth Mu m hm.ne'
  have s2 := f2_smooth z3 Mu m Nf hm.ne' hu.ne'
  have s3 := f3_smooth z3 Mu m Nf hm.ne' hu.ne'
  have z : ContDiffAt ℝ 1 (fun _ : ℝ => (0:ℝ)) m := contDiffAt_const
  have id0 : Tendsto (fun a : ℝ => a) (𝓝 0) (𝓝 0) := tendsto_id
  have T1 : ∀ u : ℝ → ℝ, Tendsto u (𝓝 0) (𝓝 m) → Tendsto (fun a => f1 Mu (u a)) (𝓝 0) (𝓝 (f1 Mu m)) := fun u hu => s1.continuousAt.tendsto.comp hu
  have T2 : ∀ u : ℝ → ℝ, Tendsto u (𝓝 0) (𝓝 m) → Tendsto (fun a => f2 z3 Mu (u a) Nf) (𝓝 0) (𝓝 (f2 z3 Mu m Nf)) := fun u hu => s2.continuousAt.tendsto.comp hu
  have T3 : ∀ u : ℝ → ℝ, Tendsto u (𝓝 0) (𝓝 m) → Tendsto (fun a => f3 z3 Mu (u a) Nf) (𝓝 0) (𝓝 (f3 z3 Mu m Nf)) := fun u hu => s3.continuousAt.tendsto.comp hu
  have bo : ∀ (h : ℝ → ℝ) (c : ℝ) (n : ℕ), Tendsto h (𝓝 0) (𝓝 c) → (fun a : ℝ => a ^ n * h a) =O[𝓝 0] (fun a : ℝ => a ^ n) := by
    intro h c n hh
    simpa using (isBigO_refl (fun a : ℝ => a ^ n) (𝓝 0)).mul (hh.isBigO_one ℝ)
  have rp : ∀ n : ℕ, (fun a : ℝ => (a / Real.pi) ^ n) =O[𝓝 0] (fun a : ℝ => a ^ n) := by
    intro n
    have := ((isBigO_refl (fun a : ℝ => a ^ n) (𝓝 0)).const_mul_left ((1 / Real.pi) ^ n))
    refine this.congr_left ?_
    intro a; rw [← mul_pow]; congr 1; ring
  have tp : Tendsto (fun a : ℝ => a / Real.pi) (𝓝 0) (𝓝 0) := by simpa using id0.div_const Real.pi
  refine ⟨?_, fun nl h2 => ?_⟩
  · have key := iterate m 2 (by norm_num) (fun M => -(f1 Mu M)) (fun _ => 0) (fun _ => 0) s1.neg z z
      (fun a M => 1 - a * f1 Mu M) (fun a M => 1 + a * f1 Mu M) (by intro a M; ring)
      (by intro u hu; simpa using (id0.mul (T1 u hu)).const_add 1)
      (by
        intro u hu
        refine (bo (fun a => -(f1 Mu (u a)) ^ 2) _ 2 ((T1 u hu).pow 2).neg).congr_left ?_
        intro a; ring)
    have k2 := (key.comp_tendsto tp).trans (rp 2)
    refine k2.congr_left ?_
    intro asM
    simp only [Function.comp, (C121_loops z3 _ Nf asM Mu _ rfl).2.1, ms2ks, (convert_val z3 m Nf asM Mu _ _ rfl).2.1]
  · rcases (show nl = 2 ∨ 3 ≤ nl by omega) with rfl | h3
    · have key := iterate m 3 (by norm_num) (fun M => -(f1 Mu M)) (fun M => f1 Mu M ^ 2 - f2 z3 Mu M Nf) (fun _ => 0) s1.neg ((s1.pow 2).sub s2) z
        (fun a M => 1 - a * f1 Mu M + a ^ 2 * (f1 Mu M ^ 2 - f2 z3 Mu M Nf)) (fun a M => 1 + a * f1 Mu M + a ^ 2 * f2 z3 Mu M Nf) (by intro a M; ring)
        (by intro u hu; simpa using ((id0.mul (T1 u hu)).const_add 1).add ((id0.pow 2).mul (T2 u hu)))
        (by
          intro u hu
          refine (bo (fun a => (f1 Mu (u a)) ^ 3 - 2 * (f1 Mu (u a) * f2 z3 Mu (u a) Nf) + a * ((f1 Mu (u a) ^ 2 - f2 z3 Mu (u a) Nf) * f2 z3 Mu (u a) Nf)) _ 3
            ((((T1 u hu).pow 3).sub (((T1 u hu).mul (T2 u hu)).const_mul 2)).add (id0.mul ((((T1 u hu).pow 2).sub (T2 u hu)).mul (T2 u hu))))).congr_left ?_
          intro a; ring)
      have k2 := (key.comp_tendsto tp).trans (rp 3)
      refine k2.congr_left ?_
      intro asM
      simp only [Function.comp, (C121_loops z3 _ Nf asM Mu _ rfl).2.2.1, ms2ks, (convert_val z3 m Nf asM Mu _ _ rfl).2.2.1]
    · have key := iterate m 3 (by norm_num) (fun M => -(f1 Mu M)) (fun M => f1 Mu M ^ 2 - f2 z3 Mu M Nf) (fun M => -(f3 z3 Mu M Nf)) s1.neg ((s1.pow 2).sub s2) s3.neg
        (fun a M => 1 - a * f1 Mu M + a ^ 2 * (f1 Mu M ^ 2 - f2 z3 Mu M Nf) - a ^ 3 * f3 z3 Mu M Nf)
        (fun a M => 1 + a * f1 Mu M + a ^ 2 * f2 z3 Mu M Nf + a ^ 3 * f3 z3 Mu M Nf) (by intro a M; ring)
        (by intro u hu; simpa using (((id0.mul (T1 u hu)).const_add 1).add ((id0.pow 2).mul (T2 u hu))).add ((id0.pow 3).mul (T3 u hu)))
        (by
          intro u hu
          refine (bo (fun a => (f1 Mu (u a)) ^ 3 - 2 * (f1 Mu (u a) * f2 z3 Mu (u a) Nf)
              + a * ((f1 Mu (u a) ^ 2 - f2 z3 Mu (u a) Nf) * f2 z3 Mu (u a) Nf - 2 * (f1 Mu (u a) * f3 z3 Mu (u a) Nf)
                + a * ((f1 Mu (u a) ^ 2 - 2 * f2 z3 Mu (u a) Nf) * f3 z3 Mu (u a) Nf - a * f3 z3 Mu (u a) Nf ^ 2))) _ 3
            ((((T1 u hu).pow 3).sub (((T1 u hu).mul (T2 u hu)).const_mul 2)).add (id0.mul ((((((T1 u hu).pow 2).sub (T2 u hu)).mul (T2 u hu)).sub
              (((T1 u hu).mul (T3 u hu)).const_mul 2)).add (id0.mul ((((((T1 u hu).pow 2).sub ((T2 u hu).const_mul 2)).mul (T3 u hu))).sub (id0.mul ((T3 u hu).pow 2))))))) ).congr_left ?_
          intro a; ring)
      have k2 := (key.comp_tendsto tp).trans (rp 3)
      refine k2.congr_left ?_
      intro asM
      simp only [Function.comp, (C121_loops z3 _ Nf asM Mu _ rfl).2.2.2.1 nl h3, ms2ks, (convert_val z3 m Nf asM Mu _ _ rfl).2.2.2 nl h3]

/-- The conversion does change the mass: at one loop, for cutoff equal to the mass and `α_s = π`. -/
example : ks2ms 0 1 4 Real.pi 1 1 = 19 / 9 := by
  rw [(C121_loops 0 1 4 Real.pi 1 1 (by rw [div_self Real.pi_pos.ne'])).2.1]; norm_num [f1]

end Verif.Rge
