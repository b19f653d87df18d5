import Verif.Physics.Kdecays.Kpinunu
/-!
# Theorems about `K → π ν ν̄` (C111)
-/
set_option linter.unusedVariables false
set_option linter.unusedSimpArgs false
namespace Verif.Kpinunu
open Verif.Py Verif.Running Verif.Ckm Complex
local notation "conj" => starRingEnd ℂ

/-! ## Specification -/

/-- Nothing is divided by zero. (Specification.) -/
structure Phys (d : Inp) : Prop where
  s2w : d.par "s2w" ≠ 0
  alpha : d.alpha ≠ 0
  Vus : d.V 0 1 ≠ 0

/-- `V_td V_ts*`, the top factor. (Specification.) -/
noncomputable def lamT (V : Mat) : ℂ := V 2 0 * conj (V 2 1)
/-- `V_cd V_cs*`, the charm factor. (Specification.) -/
noncomputable def lamC (V : Mat) : ℂ := V 1 0 * conj (V 1 1)

/-- The Standard-Model amplitude, the same for the three flavours: top plus charm. (Specification.) -/
noncomputable def smAmp (d : Inp) : ℂ :=
  lamT d.V * ((d.Xt * d.alphaZ / d.alpha : ℝ) : ℂ) + lamC d.V * (((charm d + d.par "deltaPcu") * ‖d.V 0 1‖ ^ 4 : ℝ) : ℂ)

/-- The new-physics amplitude. (Specification.) -/
noncomputable def npAmp (d : Inp) (np : String → ℂ) (a b : String) : ℂ :=
  -((d.par "s2w" : ℝ) : ℂ) * lamT d.V * (np ("CL_sd" ++ a ++ b) + np ("CR_sd" ++ a ++ b))

/-- The total amplitude. (Specification.) -/
noncomputable def amp (d : Inp) (np : String → ℂ) (a b : String) : ℂ := (if a = b then smAmp d else 0) + npAmp d np a b

/-- The normalization factor for a given `kappa_tilde`. (Specification.) -/
noncomputable def kap (d : Inp) (k : ℝ) : ℝ := k / (0.225 : ℝ) ^ 8 * (127.9 * d.alpha) ^ 2 * (0.231 / d.par "s2w") ^ 2 / (3 * ‖d.V 0 1‖ ^ 2)

/-- The sum over the nine flavour combinations. (Specification.) -/
noncomputable def sum9 (f : String → String → ℝ) : ℝ :=
  f "nue" "nue" + f "nue" "numu" + f "nue" "nutau" + f "numu" "nue" + f "numu" "numu" + f "numu" "nutau"
    + f "nutau" "nue" + f "nutau" "numu" + f "nutau" "nutau"

/-! ## Lemmas -/

theorem amplitude_eq (d : Inp) (np : String → ℂ) (a b : String) (hs : d.par "s2w" ≠ 0) :
    amplitude d np a b = amp d np a b := by
  have hs' : (d.par "s2w" : ℂ) ≠ 0 := by exact_mod_cast hs
  have e1 : xiDS d 2 = lamT d.V := rfl
  have e2 : xiDS d 1 = lamC d.V := rfl
  unfold amplitude clTot amp npAmp smAmp Nunu.clSM
  simp only [e1, e2]
  by_cases h : a = b
  · rw [if_pos h, if_pos h, if_pos h]
    push_cast
    field_simp
    ring
  · rw [if_neg h, if_neg h, if_neg h]
    ring

theorem brPlus_eq (d : Inp) (np : String → ℂ) (a b : String) (H : Phys d) :
    brPlus d np a b = .ok (kap d (d.par "kappa_plus_tilde") * ‖amp d np a b‖ ^ 2) := by
  have h1 : d.par "s2w" ^ 2 ≠ 0 := pow_ne_zero _ H.s2w
  have h2 : ‖d.V 0 1‖ ^ 2 ≠ 0 := pow_ne_zero _ (norm_ne_zero_iff.2 H.Vus)
  unfold brPlus kappaTilde
  simp only [if_true, Mixing.pyDiv_ne h1, Mixing.pyDiv_ne h2, Bind.bind, Except.bind, pure, Except.pure, amplitude_eq d np a b H.s2w]
  show Except.ok _ = Except.ok _
  congr 1
  unfold kap; ring

theorem brLong_eq (d : Inp) (np : String → ℂ) (a b : String) (H : Phys d) :
    brLong d np a b = .ok (kap d (d.par "kappa_L_tilde") * (amp d np a b).im ^ 2) := by
  have h1 : d.par "s2w" ^ 2 ≠ 0 := pow_ne_zero _ H.s2w
  have h2 : ‖d.V 0 1‖ ^ 2 ≠ 0 := pow_ne_zero _ (norm_ne_zero_iff.2 H.Vus)
  have h3 : ¬ ("long" = "plus") := by decide
  unfold brLong kappaTilde
  simp only [if_neg h3, if_true, Mixing.pyDiv_ne h1, Mixing.pyDiv_ne h2, Bind.bind, Except.bind, pure, Except.pure, amplitude_eq d np a b H.s2w]
  show Except.ok _ = Except.ok _
  congr 1
  unfold kap; ring

theorem sumAll_eq (f : String → String → Except PyErr ℝ) (g : String → String → ℝ) (h : ∀ a b, f a b = .ok (g a b)) :
    sumAll f = .ok (sum9 g) := by
  have hp : pairs = [("nue", "nue"), ("nue", "numu"), ("nue", "nutau"), ("numu", "nue"), ("numu", "numu"), ("numu", "nutau"),
    ("nutau", "nue"), ("nutau", "numu"), ("nutau", "nutau")] := by decide
  unfold sumAll
  rw [hp]
  simp only [List.mapM_cons, List.mapM_nil, h, Bind.bind, Except.bind, pure, Except.pure]
  congr 1
  unfold sum9
  simp only [List.sum_cons, List.sum_nil]; ring

theorem sum9_mul (c : ℝ) (f : String → String → ℝ) : sum9 (fun a b => c * f a b) = c * sum9 f := by unfold sum9; ring

theorem sum9_nonneg {f : String → String → ℝ} (h : ∀ a b, 0 ≤ f a b) : 0 ≤ sum9 f := by
  have := h "nue" "nue"; have := h "nue" "numu"; have := h "nue" "nutau"; have := h "numu" "nue"; have := h "numu" "numu"
  have := h "numu" "nutau"; have := h "nutau" "nue"; have := h "nutau" "numu"; have := h "nutau" "nutau"
  unfold sum9; linarith

theorem sum9_mono {f g : String → String → ℝ} (h : ∀ a b, f a b ≤ g a b) : sum9 f ≤ sum9 g := by
  have := sum9_nonneg (f := fun a b => g a b - f a b) (fun a b => sub_nonneg.2 (h a b))
  unfold sum9 at *; linarith

theorem kap_nonneg (d : Inp) {k : ℝ} (hk : 0 ≤ k) : 0 ≤ kap d k := by unfold kap; positivity

/-! ## The claims -/

/-- **C111 (branching ratios).** For all parameters without a division by zero and all Wilson coefficients, both predictions return the sum
over the nine flavour combinations of the squared modulus (charged) or squared imaginary part (neutral) of the amplitude, in
which the Standard Model enters for equal flavours only. -/
theorem C111_branching_ratios (d : Inp) (np : String → ℂ) (H : Phys d) :
    brPlusSummed d np = .ok (kap d (d.par "kappa_plus_tilde") * sum9 (fun a b => ‖amp d np a b‖ ^ 2)) ∧
    brLongSummed d np = .ok (kap d (d.par "kappa_L_tilde") * sum9 (fun a b => (amp d np a b).im ^ 2)) := by
  unfold brPlusSummed brLongSummed
  rw [sumAll_eq _ _ (fun a b => brPlus_eq d np a b H), sumAll_eq _ _ (fun a b => brLong_eq d np a b H), sum9_mul, sum9_mul]
  exact ⟨rfl, rfl⟩

/-- **C111 (Grossman–Nir bound).** Both branching ratios are non-negative, and `BR(K_L) · κ₊ ≤ BR(K⁺) · κ_L` whatever the new physics. -/
theorem C111_grossman_nir (d : Inp) (np : String → ℂ) (H : Phys d) (hp : 0 ≤ d.par "kappa_plus_tilde") (hl : 0 ≤ d.par "kappa_L_tilde") :
    ∃ x y, brPlusSummed d np = .ok x ∧ brLongSummed d np = .ok y ∧ 0 ≤ x ∧ 0 ≤ y ∧
      y * d.par "kappa_plus_tilde" ≤ x * d.par "kappa_L_tilde" := by
  obtain ⟨h1, h2⟩ := C111_branching_ratios d np H
  refine ⟨_, _, h1, h2, mul_nonneg (kap_nonneg d hp) (sum9_nonneg fun a b => by positivity),
    mul_nonneg (kap_nonneg d hl) (sum9_nonneg fun a b => by positivity), ?_⟩
  have hle : sum9 (fun a b => (amp d np a b).im ^ 2) ≤ sum9 (fun a b => ‖amp d np a b‖ ^ 2) := by
    refine sum9_mono fun a b => ?_
    rw [← normSq_eq_norm_sq, normSq_apply]; nlinarith [sq_nonneg (amp d np a b).re]
  have hk : kap d (d.par "kappa_L_tilde") * d.par "kappa_plus_tilde" = kap d (d.par "kappa_plus_tilde") * d.par "kappa_L_tilde" := by
    unfold kap; ring
  have h0 : 0 ≤ kap d (d.par "kappa_plus_tilde") * d.par "kappa_L_tilde" := mul_nonneg (kap_nonneg d hp) hl
  calc _ = (kap d (d.par "kappa_L_tilde") * d.par "kappa_plus_tilde") * sum9 (fun a b => (amp d np a b).im ^ 2) := by ring
    _ ≤ (kap d (d.par "kappa_plus_tilde") * d.par "kappa_L_tilde") * sum9 (fun a b => ‖amp d np a b‖ ^ 2) := by
        rw [hk]; exact mul_le_mul_of_nonneg_left hle h0
    _ = _ := by ring

/-- **C111 (Standard Model).** Without new physics the sum is three times the contribution of one flavour, the off-diagonal
flavours contribute nothing, and the neutral branching ratio vanishes if the CKM factors are real (no CP violation). -/
theorem C111_standard_model (d : Inp) (np : String → ℂ) (H : Phys d) (hn : ∀ a b, npAmp d np a b = 0) :
    brPlusSummed d np = .ok (3 * kap d (d.par "kappa_plus_tilde") * ‖smAmp d‖ ^ 2) ∧
    brLongSummed d np = .ok (3 * kap d (d.par "kappa_L_tilde") * (smAmp d).im ^ 2) ∧
    (∀ a b, a ≠ b → brPlus d np a b = .ok 0 ∧ brLong d np a b = .ok 0) ∧
    ((lamT d.V).im = 0 → (lamC d.V).im = 0 → brLongSummed d np = .ok 0) := by
  obtain ⟨h1, h2⟩ := C111_branching_ratios d np H
  have hd : ∀ a b, amp d np a b = if a = b then smAmp d else 0 := fun a b => by unfold amp; rw [hn, add_zero]
  have hl : brLongSummed d np = .ok (3 * kap d (d.par "kappa_L_tilde") * (smAmp d).im ^ 2) := by
    rw [h2]; congr 1; unfold sum9; simp only [hd]; simp; ring
  refine ⟨?_, hl, fun a b hab => ⟨?_, ?_⟩, fun ht hc => ?_⟩
  · rw [h1]; congr 1; unfold sum9; simp only [hd]; simp; ring
  · rw [brPlus_eq d np a b H, hd, if_neg hab]; simp
  · rw [brLong_eq d np a b H, hd, if_neg hab]; simp
  · rw [hl]
    have : (smAmp d).im = 0 := by unfold smAmp; rw [Complex.add_im, Complex.im_mul_ofReal, Complex.im_mul_ofReal, ht, hc]; ring
    rw [this]; simp

/-- **C111 (vector coupling only).** Only the sum `CL + CR` of each flavour combination matters. -/
theorem C111_vector_only (d : Inp) (np np' : String → ℂ) (H : Phys d)
    (h : ∀ a b, np ("CL_sd" ++ a ++ b) + np ("CR_sd" ++ a ++ b) = np' ("CL_sd" ++ a ++ b) + np' ("CR_sd" ++ a ++ b)) :
    brPlusSummed d np = brPlusSummed d np' ∧ brLongSummed d np = brLongSummed d np' := by
  have e : ∀ a b, amp d np a b = amp d np' a b := fun a b => by unfold amp npAmp; rw [h]
  rw [(C111_branching_ratios d np H).1, (C111_branching_ratios d np H).2, (C111_branching_ratios d np' H).1, (C111_branching_ratios d np' H).2]
  simp only [e]
  exact ⟨trivial, trivial⟩

/-- **C111 (flavour violation only adds).** Flavour-off-diagonal coefficients can only increase the branching ratios: switching them off
gives a branching ratio that is at most as large. -/
theorem C111_lfv_adds (d : Inp) (np np' : String → ℂ) (H : Phys d) (hp : 0 ≤ d.par "kappa_plus_tilde") (hl : 0 ≤ d.par "kappa_L_tilde")
    (hs : ∀ a, npAmp d np a a = npAmp d np' a a) (ho : ∀ a b, a ≠ b → npAmp d np' a b = 0) :
    ∃ x x' y y', brPlusSummed d np = .ok x ∧ brPlusSummed d np' = .ok x' ∧ brLongSummed d np = .ok y ∧ brLongSummed d np' = .ok y' ∧ x' ≤ x ∧ y' ≤ y := by
  refine ⟨_, _, _, _, (C111_branching_ratios d np H).1, (C111_branching_ratios d np' H).1, (C111_branching_ratios d np H).2, (C111_branching_ratios d np' H).2,
    mul_le_mul_of_nonneg_left (sum9_mono fun a b => ?_) (kap_nonneg d hp), mul_le_mul_of_nonneg_left (sum9_mono fun a b => ?_) (kap_nonneg d hl)⟩
  · by_cases h : a = b
    · subst h; unfold amp; rw [hs]
    · have : amp d np' a b = 0 := by unfold amp; rw [if_neg h, ho a b h, add_zero]
      rw [this]; simp
  · by_cases h : a = b
    · subst h; unfold amp; rw [hs]
    · have : amp d np' a b = 0 := by unfold amp; rw [if_neg h, ho a b h, add_zero]
      rw [this]; simp [sq_nonneg]

/-- **C111 (phase conventions).** `BR(K⁺)` does not change under any rephasing of the quark fields; `BR(K_L)` does not change under
rephasings with the same phase for `d` and `s`. -/
theorem C111_rephasing (d : Inp) (np : String → ℂ) (H : Phys d) (p q : Fin 3 → ℂ) (hp : ∀ i, ‖p i‖ = 1) (hq : ∀ i, ‖q i‖ = 1) :
    brPlusSummed ⟨d.par, fun i j => p i * d.V i j * q j, d.Xt, d.alphaZ, d.alpha⟩ np = brPlusSummed d np ∧
    (q 0 = q 1 → brLongSummed ⟨d.par, fun i j => p i * d.V i j * q j, d.Xt, d.alphaZ, d.alpha⟩ np = brLongSummed d np) := by
  set W : Mat := fun i j => p i * d.V i j * q j with hW
  set e : Inp := ⟨d.par, W, d.Xt, d.alphaZ, d.alpha⟩ with he
  have n0 : ∀ z : ℂ, ‖z‖ = 1 → z * conj z = 1 := fun z hz => by rw [mul_conj, normSq_eq_norm_sq, hz]; simp
  have hn : ‖W 0 1‖ = ‖d.V 0 1‖ := by show ‖p 0 * d.V 0 1 * q 1‖ = _; rw [norm_mul, norm_mul, hp, hq]; simp
  have eT : lamT W = q 0 * conj (q 1) * lamT d.V := by
    show p 2 * d.V 2 0 * q 0 * conj (p 2 * d.V 2 1 * q 1) = _
    unfold lamT; simp only [map_mul]
    linear_combination (d.V 2 0 * q 0 * conj (d.V 2 1) * conj (q 1)) * n0 _ (hp 2)
  have eC : lamC W = q 0 * conj (q 1) * lamC d.V := by
    show p 1 * d.V 1 0 * q 0 * conj (p 1 * d.V 1 1 * q 1) = _
    unfold lamC; simp only [map_mul]
    linear_combination (d.V 1 0 * q 0 * conj (d.V 1 1) * conj (q 1)) * n0 _ (hp 1)
  have hV : W 0 1 ≠ 0 := norm_ne_zero_iff.1 (by rw [hn]; exact norm_ne_zero_iff.2 H.Vus)
  have H' : Phys e := ⟨H.s2w, H.alpha, hV⟩
  have hk : ∀ k, kap e k = kap d k := fun k => by unfold kap; simp only [he, hn]
  have hA : ∀ a b, amp e np a b = q 0 * conj (q 1) * amp d np a b := by
    intro a b
    have hc : charm e = charm d := rfl
    unfold amp npAmp smAmp
    rw [hc]
    simp only [he, eT, eC, hn]
    split_ifs <;> ring
  rw [(C111_branching_ratios d np H).1, (C111_branching_ratios d np H).2, (C111_branching_ratios e np H').1, (C111_branching_ratios e np H').2]
  simp only [hA, hk]
  refine ⟨?_, fun h01 => ?_⟩
  · have hu : ‖q 0 * conj (q 1)‖ = 1 := by rw [norm_mul, RCLike.norm_conj, hq, hq, mul_one]
    simp only [norm_mul] at hu ⊢
    simp only [hu, one_mul]
    rfl
  · rw [h01, n0 _ (hq 1)]
    simp only [one_mul]
    rfl

/-- **C111 (finding: the scale enters the charm part).** In the Standard Model `BR(K⁺)` is proportional to the square of
`α(m_Z) λ_t X_t + α(μ) λ_c (P_c + δP_cu) |V_us|⁴`: the top term does not depend on the scale `μ` at which the Wilson coefficients are
evaluated, the charm term does, through `α(μ)`. -/
theorem C111_scale_dependence (d : Inp) (np : String → ℂ) (H : Phys d) (hn : ∀ a b, npAmp d np a b = 0) :
    brPlusSummed d np = .ok (d.par "kappa_plus_tilde" / (0.225 : ℝ) ^ 8 * (127.9 * 0.231 / d.par "s2w") ^ 2 / ‖d.V 0 1‖ ^ 2
      * ‖(d.alphaZ * d.Xt : ℝ) * lamT d.V + (d.alpha * ((charm d + d.par "deltaPcu") * ‖d.V 0 1‖ ^ 4) : ℝ) * lamC d.V‖ ^ 2) := by
  rw [(C111_standard_model d np H hn).1]
  congr 1
  have ha : (d.alpha : ℂ) ≠ 0 := by exact_mod_cast H.alpha
  have e : ((d.alphaZ * d.Xt : ℝ) : ℂ) * lamT d.V + ((d.alpha * ((charm d + d.par "deltaPcu") * ‖d.V 0 1‖ ^ 4) : ℝ) : ℂ) * lamC d.V = (d.alpha : ℂ) * smAmp d := by
    unfold smAmp; push_cast; field_simp
  rw [e, norm_mul, mul_pow]
  have : ‖(d.alpha : ℂ)‖ ^ 2 = d.alpha ^ 2 := by rw [Complex.norm_real, Real.norm_eq_abs, sq_abs]
  rw [this]
  unfold kap
  have h2 : ‖d.V 0 1‖ ≠ 0 := norm_ne_zero_iff.2 H.Vus
  have h1 := H.s2w
  field_simp

/-- **C111 (errors).** Any other name of the charge is a `ValueError`. -/
theorem C111_charge_error (d : Inp) (charge : String) (h1 : charge ≠ "plus") (h2 : charge ≠ "long") : kappaTilde d charge = .error .valueError := by
  unfold kappaTilde; rw [if_neg h1, if_neg h2]; rfl

/-! ## A concrete case -/

/-- A point with all parameters equal to one and a complex CKM matrix. (Example.) (Specification.) -/
noncomputable def exInp : Inp := ⟨fun _ => 1, fun i j => (1 + I) ^ (i.val + 2 * j.val * i.val), 1, 1, 1⟩

theorem exInp_phys : Phys exInp := by
  refine ⟨by simp [exInp], by simp [exInp], ?_⟩
  show (1 + I : ℂ) ^ _ ≠ 0
  refine pow_ne_zero _ ?_
  intro h; have := congrArg Complex.re h; simp at this

/-- The Grossman–Nir statement applies to the example. -/
example : ∃ x y, brPlusSummed exInp (fun _ => 1) = .ok x ∧ brLongSummed exInp (fun _ => 1) = .ok y ∧ 0 ≤ y ∧ y ≤ x := by
  obtain ⟨x, y, hx, hy, -, h0, h⟩ := C111_grossman_nir exInp (fun _ => 1) exInp_phys (by simp [exInp]) (by simp [exInp])
  exact ⟨x, y, hx, hy, h0, by simpa [exInp] using h⟩

/-! ## The charm contribution -/

/-- **C111 (charm).** The charm contribution is `0.379` for `m_c = 1.3` and `alpha_s = 0.1187`, and relative to this it grows with the power
`2.155` of the charm mass and falls with the power `1.417` of the coupling. -/
theorem C111_charm (d : Inp) (hm : 0 < d.par "m_c") (ha : 0 < d.par "alpha_s") :
    charm d = 0.379 * Real.exp (2.155 * Real.log (d.par "m_c" / 1.3) - 1.417 * Real.log (d.par "alpha_s" / 0.1187)) ∧
    (d.par "m_c" = 1.3 → d.par "alpha_s" = 0.1187 → charm d = 0.379) := by
  have e : charm d = 0.379 * Real.exp (2.155 * Real.log (d.par "m_c" / 1.3) - 1.417 * Real.log (d.par "alpha_s" / 0.1187)) := by
    unfold charm
    rw [Real.rpow_def_of_pos (by positivity), Real.rpow_def_of_pos (by positivity), mul_assoc, ← Real.exp_add]
    congr 2
    ring
  refine ⟨e, fun h1 h2 => ?_⟩
  rw [e, h1, h2]
  norm_num

end Verif.Kpinunu
