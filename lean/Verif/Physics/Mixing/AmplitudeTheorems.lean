import Verif.Physics.Mixing.Amplitude
import Mathlib.Analysis.Calculus.Deriv.MeanValue
/-!
# Phase conventions, CP conjugation and Standard Model relations of the mixing observables (C87)
-/
set_option linter.unusedVariables false
set_option linter.unusedSimpArgs false
namespace Verif.Mixing
open Verif.Py Complex Verif.Ckm
open scoped ComplexConjugate

/-! ## Specification -/

/-- Rephasing of the quark fields: `V_ij → p_i V_ij q_j`. (Specification.) -/
def rephase (V : Mat) (p q : Fin 3 → ℂ) : Mat := fun i j => p i * V i j * q j

/-- The phase by which the combination `V_ab V_ac*` of the meson's two quarks `b`, `c` changes. (Specification.) -/
noncomputable def mesonPhase (p q : Fin 3 → ℂ) : Meson → ℂ
  | .B0 => q 2 * conj (q 0)
  | .Bs => q 2 * conj (q 1)
  | .K0 => q 1 * conj (q 0)
  | .D0 => p 0 * conj (p 1)

/-! ## Rephasing -/

theorem phase_sq {z : ℂ} (hz : ‖z‖ = 1) : z * conj z = 1 := by
  rw [mul_conj, normSq_eq_norm_sq, hz]; simp

theorem mesonPhase_norm {p q : Fin 3 → ℂ} (hp : ∀ i, ‖p i‖ = 1) (hq : ∀ i, ‖q i‖ = 1) (m : Meson) :
    ‖mesonPhase p q m‖ = 1 := by
  cases m <;> simp [mesonPhase, hp, hq]

/-- For the down-type mesons every `xi(a, bc)` picks up the meson phase. -/
theorem xi_rephase {p q : Fin 3 → ℂ} (hp : ∀ i, ‖p i‖ = 1) (m : Meson) (hm : m ≠ .D0) (a : Char)
    (ha : a ∈ ['u', 'c', 't']) (V : Mat) :
    ∃ f, xi a m.quarks = .ok f ∧ f (rephase V p q) = mesonPhase p q m * f V ∧ f (V.map conj) = conj (f V) := by
  have key : ∀ k i j : Fin 3, xiKlIj (rephase V p q) k k i j = q i * conj (q j) * xiKlIj V k k i j := by
    intro k i j
    unfold xiKlIj rephase
    rw [map_mul, map_mul]
    linear_combination (V k i * q i * conj (V k j) * conj (q j)) * phase_sq (hp k)
  have key2 : ∀ k i j : Fin 3, xiKlIj (V.map conj) k k i j = conj (xiKlIj V k k i j) := by
    intro k i j
    unfold xiKlIj
    rw [Matrix.map_apply, Matrix.map_apply, map_mul]
  simp only [List.mem_cons, List.not_mem_nil, or_false] at ha
  cases m
  · rcases ha with rfl | rfl | rfl <;> exact ⟨_, rfl, key _ _ _, key2 _ _ _⟩
  · rcases ha with rfl | rfl | rfl <;> exact ⟨_, rfl, key _ _ _, key2 _ _ _⟩
  · rcases ha with rfl | rfl | rfl <;> exact ⟨_, rfl, key _ _ _, key2 _ _ _⟩
  · exact absurd rfl hm

theorem xi_rephase_D {p q : Fin 3 → ℂ} (hq : ∀ i, ‖q i‖ = 1) (a : Char)
    (ha : a ∈ ['d', 's', 'b']) (V : Mat) :
    ∃ f, xi a ['u', 'c'] = .ok f ∧ f (rephase V p q) = mesonPhase p q .D0 * f V ∧ f (V.map conj) = conj (f V) := by
  have key : ∀ k : Fin 3, xiKlIj (rephase V p q) 0 1 k k = p 0 * conj (p 1) * xiKlIj V 0 1 k k := by
    intro k
    unfold xiKlIj rephase
    rw [map_mul, map_mul]
    linear_combination (V 0 k * p 0 * conj (V 1 k) * conj (p 1)) * phase_sq (hq k)
  have key2 : ∀ k : Fin 3, xiKlIj (V.map conj) 0 1 k k = conj (xiKlIj V 0 1 k k) := by
    intro k
    unfold xiKlIj
    rw [Matrix.map_apply, Matrix.map_apply, map_mul]
  simp only [List.mem_cons, List.not_mem_nil, or_false] at ha
  rcases ha with rfl | rfl | rfl <;> exact ⟨_, rfl, key _, key2 _⟩

theorem threeBoxes_phase (N xt x k : ℝ) (a b u : ℂ) (e1 e2 e3 : ℝ) :
    threeBoxes N xt x k (u * a) (u * b) e1 e2 e3 = (threeBoxes N xt x k a b e1 e2 e3).map (u ^ 2 * ·) ∧
    threeBoxes N xt x k (conj a) (conj b) e1 e2 e3 = (threeBoxes N xt x k a b e1 e2 e3).map (conj ·) := by
  unfold threeBoxes
  cases s0Box xt xt k with
  | error e => exact ⟨rfl, rfl⟩
  | ok s1 =>
    cases s0Box x xt k with
    | error e => exact ⟨rfl, rfl⟩
    | ok s2 =>
      cases s0Box x x k with
      | error e => exact ⟨rfl, rfl⟩
      | ok s3 =>
        constructor
        · show Except.ok _ = Except.ok _
          congr 1; ring
        · show Except.ok _ = Except.ok _
          congr 1
          simp only [map_mul, map_add, map_pow, conj_ofReal, map_ofNat]

theorem cvllD_phase {p q : Fin 3 → ℂ} (hp : ∀ i, ‖p i‖ = 1) (m : Meson) (hm : m ≠ .D0) (conf : String) (V : Mat)
    (i : Inputs) :
    cvllD conf (rephase V p q) i m = (cvllD conf V i m).map (mesonPhase p q m ^ 2 * ·) ∧
    cvllD conf (V.map conj) i m = (cvllD conf V i m).map (conj ·) := by
  obtain ⟨ft, e1, t1, t2⟩ := xi_rephase (q := q) hp m hm 't' (by simp) V
  obtain ⟨fu, e2, u1, u2⟩ := xi_rephase (q := q) hp m hm 'u' (by simp) V
  obtain ⟨fc, e3, c1, c2⟩ := xi_rephase (q := q) hp m hm 'c' (by simp) V
  unfold cvllD
  simp only [e1, e2, e3, ok_bind_eq, t1, u1, c1, t2, u2, c2]
  by_cases hk : m = .K0
  · simp only [if_pos hk]
    split
    · exact threeBoxes_phase _ _ _ _ _ _ _ _ _ _
    · split
      · exact threeBoxes_phase _ _ _ _ _ _ _ _ _ _
      · exact ⟨rfl, rfl⟩
  · simp only [if_neg hk]
    cases s0Box (ratio i.par i.mtmt) (ratio i.par i.mtmt) (ratio i.par (i.par "m_u")) with
    | error e => exact ⟨rfl, rfl⟩
    | ok s =>
      constructor
      · show Except.ok _ = Except.ok _
        congr 1; ring
      · show Except.ok _ = Except.ok _
        congr 1
        simp only [map_mul, map_add, map_pow, conj_ofReal]

theorem m12dSM_phase {p q : Fin 3 → ℂ} (hp : ∀ i, ‖p i‖ = 1) (m : Meson) (hm : m ≠ .D0) (conf : String) (V : Mat)
    (i : Inputs) :
    m12dSM conf (rephase V p q) i m = (m12dSM conf V i m).map (mesonPhase p q m ^ 2 * ·) ∧
    m12dSM conf (V.map conj) i m = (m12dSM conf V i m).map (conj ·) := by
  obtain ⟨h1, h2⟩ := cvllD_phase (q := q) hp m hm conf V i
  unfold m12dSM
  rw [h1, h2]
  cases bagMsbar2rgi i.alphaS m with
  | error e => exact ⟨rfl, rfl⟩
  | ok b =>
    cases cvllD conf V i m with
    | error e => exact ⟨rfl, rfl⟩
    | ok c =>
      constructor
      · show Except.ok _ = Except.ok _
        congr 1; ring
      · show Except.ok _ = Except.ok _
        congr 1
        simp only [map_mul, map_neg, conj_ofReal]

theorem uSM_phase {p q : Fin 3 → ℂ} (hq : ∀ i, ‖q i‖ = 1) (pre : String) (V : Mat) (i : Inputs) :
    uSM pre (rephase V p q) i = (uSM pre V i).map (mesonPhase p q .D0 ^ 2 * ·) ∧
    uSM pre (V.map conj) i = (uSM pre V i).map (conj ·) := by
  obtain ⟨fb, e1, b1, b2⟩ := xi_rephase_D (p := p) hq 'b' (by simp) V
  obtain ⟨fs, e2, s1, s2⟩ := xi_rephase_D (p := p) hq 's' (by simp) V
  unfold uSM
  simp only [e1, e2, ok_bind_eq, b1, s1, b2, s2]
  constructor
  · show Except.ok _ = Except.ok _
    congr 1; ring
  · show Except.ok _ = Except.ok _
    congr 1
    simp only [map_mul, map_add, map_pow, map_div₀, conj_ofReal]

theorem npSpec_phase (par : String → ℝ) (a b : ℝ) (n f : String) (wc : String → ℂ) (u : ℂ) :
    npSpec par a b n f (fun s => u * wc s) = u * npSpec par a b n f wc ∧
    npSpec par a b n f (fun s => conj (wc s)) = conj (npSpec par a b n f wc) := by
  unfold npSpec
  constructor
  · ring
  · simp only [map_mul, map_add, map_sub, map_neg, map_pow, map_div₀, conj_ofReal, map_ofNat, map_add]

theorem m12_phase {p q : Fin 3 → ℂ} (hp : ∀ i, ‖p i‖ = 1) (hq : ∀ i, ‖q i‖ = 1) (m : Meson) (conf : String)
    (V : Mat) (i : Inputs) (wc : String → ℂ) :
    m12 conf (rephase V p q) i m (fun s => mesonPhase p q m ^ 2 * wc s) =
      (m12 conf V i m wc).map (mesonPhase p q m ^ 2 * ·) ∧
    m12 conf (V.map conj) i m (fun s => conj (wc s)) = (m12 conf V i m wc).map (conj ·) := by
  unfold m12
  rw [np_eq, np_eq, np_eq, (npSpec_phase _ _ _ _ _ _ _).1, (npSpec_phase _ _ _ _ _ _ 1).2]
  have : (if m = .D0 then uSM "M12" (rephase V p q) i else m12dSM conf (rephase V p q) i m) =
      (if m = .D0 then uSM "M12" V i else m12dSM conf V i m).map (mesonPhase p q m ^ 2 * ·) ∧
      (if m = .D0 then uSM "M12" (V.map conj) i else m12dSM conf (V.map conj) i m) =
      (if m = .D0 then uSM "M12" V i else m12dSM conf V i m).map (conj ·) := by
    by_cases h : m = .D0
    · simp only [if_pos h]; subst h; exact uSM_phase hq _ _ _
    · simp only [if_neg h]; exact m12dSM_phase hp m h _ _ _
  rw [this.1, this.2]
  cases (if m = .D0 then uSM "M12" V i else m12dSM conf V i m) with
  | error e => exact ⟨rfl, rfl⟩
  | ok s =>
    constructor
    · show Except.ok _ = Except.ok _
      congr 1; ring
    · show Except.ok _ = Except.ok _
      congr 1; simp only [map_add]

theorem g12dSM_phase {p q : Fin 3 → ℂ} (hp : ∀ i, ‖p i‖ = 1) (hq : ∀ i, ‖q i‖ = 1) (m : Meson) (hm : m ≠ .D0)
    (conf : String) (V : Mat) (i : Inputs) :
    g12dSM conf (rephase V p q) i m = (g12dSM conf V i m).map (mesonPhase p q m ^ 2 * ·) ∧
    g12dSM conf (V.map conj) i m = (g12dSM conf V i m).map (conj ·) := by
  obtain ⟨ft, e1, t1, t2⟩ := xi_rephase (q := q) hp m hm 't' (by simp) V
  obtain ⟨fu, e2, u1, u2⟩ := xi_rephase (q := q) hp m hm 'u' (by simp) V
  obtain ⟨h1, h2⟩ := m12dSM_phase (q := q) hp m hm conf V i
  have hu0 : mesonPhase p q m ≠ 0 := norm_ne_zero_iff.1 (by rw [mesonPhase_norm hp hq]; exact one_ne_zero)
  unfold g12dSM
  simp only [e1, e2, ok_bind_eq, t1, u1, t2, u2, h1, h2]
  cases m12dSM conf V i m with
  | error e => exact ⟨rfl, rfl⟩
  | ok s =>
    constructor
    · show Except.ok _ = Except.ok _
      congr 1
      have hr : ∀ a : ℂ, a * (mesonPhase p q m * fu V) / (mesonPhase p q m * ft V) = a * fu V / ft V := by
        intro a; rw [mul_left_comm, mul_div_mul_left _ _ hu0]
      simp only [hr]
      ring
    · show Except.ok _ = Except.ok _
      congr 1
      simp only [map_mul, map_add, map_div₀, conj_ofReal, map_one, map_pow, map_ofNat]

/-- **C87 (covariance)** Rephasing the quark fields and the Wilson coefficients consistently multiplies both mixing
amplitudes by the same phase; complex conjugation of the CKM matrix and the coefficients conjugates both. -/
theorem C87_amplitudes_covariant {p q : Fin 3 → ℂ} (hp : ∀ i, ‖p i‖ = 1) (hq : ∀ i, ‖q i‖ = 1) (m : Meson)
    (conf : String) (V : Mat) (i : Inputs) (wc : String → ℂ) :
    getM12G12 conf (rephase V p q) i m (fun s => mesonPhase p q m ^ 2 * wc s) =
      (getM12G12 conf V i m wc).map (fun a => (mesonPhase p q m ^ 2 * a.1, mesonPhase p q m ^ 2 * a.2)) ∧
    getM12G12 conf (V.map conj) i m (fun s => conj (wc s)) =
      (getM12G12 conf V i m wc).map (fun a => (conj a.1, conj a.2)) := by
  obtain ⟨h1, h2⟩ := m12_phase hp hq m conf V i wc
  unfold getM12G12
  rw [h1, h2]
  cases m12 conf V i m wc with
  | error e => exact ⟨rfl, rfl⟩
  | ok M =>
    cases m with
    | K0 =>
      constructor
      · show Except.ok _ = Except.ok _; simp
      · show Except.ok _ = Except.ok _; simp
    | D0 =>
      obtain ⟨g1, g2⟩ := uSM_phase (p := p) hq "Gamma12" V i
      simp only [Except.map, ok_bind_eq, g1, g2]
      cases uSM "Gamma12" V i <;> exact ⟨rfl, rfl⟩
    | B0 =>
      obtain ⟨g1, g2⟩ := g12dSM_phase (p := p) (q := q) hp hq .B0 (by decide) conf V i
      simp only [Except.map, ok_bind_eq, g1, g2]
      cases g12dSM conf V i .B0 <;> exact ⟨rfl, rfl⟩
    | Bs =>
      obtain ⟨g1, g2⟩ := g12dSM_phase (p := p) (q := q) hp hq .Bs (by decide) conf V i
      simp only [Except.map, ok_bind_eq, g1, g2]
      cases g12dSM conf V i .Bs <;> exact ⟨rfl, rfl⟩

/-- **C87 (phase conventions)** The reported mixing observables do not depend on the phase convention of the CKM
matrix: for every rephasing of the quark fields (and of the Wilson coefficients) the positive mass difference, the
flavour-specific asymmetry, `|q/p|`, `x12`, `y12`, `phi12` and the time-dependent asymmetry `S` are the same. -/
theorem C87_observables_rephasing {p q : Fin 3 → ℂ} (hp : ∀ i, ‖p i‖ = 1) (hq : ∀ i, ‖q i‖ = 1) (m : Meson)
    (conf : String) (V : Mat) (i : Inputs) (wc : String → ℂ) (M G : ℂ)
    (h : getM12G12 conf V i m wc = .ok (M, G)) (hne : 2 * M - I * G ≠ 0) (tau eta : ℝ) :
    ∃ M' G', getM12G12 conf (rephase V p q) i m (fun s => mesonPhase p q m ^ 2 * wc s) = .ok (M', G') ∧
      deltaMPositive M' G' = deltaMPositive M G ∧ aFs M' G' = aFs M G ∧ ‖qOverP M' G'‖ = ‖qOverP M G‖ ∧
      x12 M' tau = x12 M tau ∧ y12 G' tau = y12 G tau ∧ phi12 M' G' = phi12 M G ∧
      (m ≠ .D0 → deltaM M G ≠ 0 →
        deltaGammaB M' G' = deltaGammaB M G ∧
        sPsi conf (rephase V p q) i m (fun s => mesonPhase p q m ^ 2 * wc s) eta = sPsi conf V i m wc eta) := by
  have hu : ‖mesonPhase p q m ^ 2‖ = 1 := by rw [norm_pow, mesonPhase_norm hp hq, one_pow]
  have e := (C87_amplitudes_covariant hp hq m conf V i wc).1
  rw [h] at e
  replace e : getM12G12 conf (rephase V p q) i m (fun s => mesonPhase p q m ^ 2 * wc s) =
    .ok (mesonPhase p q m ^ 2 * M, mesonPhase p q m ^ 2 * G) := e
  obtain ⟨a1, a2, a3, a4, a5, a6, a7⟩ := C86_rephasing _ M G hu hne tau
  refine ⟨_, _, e, a1, a3, a4, a5, a6, a7, fun hm hd => ⟨a2 hd, ?_⟩⟩
  unfold sPsi
  rw [e, h]
  obtain ⟨fc, e3, c1, c2⟩ := xi_rephase (q := q) hp m hm 'c' (by simp) V
  have hconj : (rephase V p q).map conj = rephase (V.map conj) (fun i => conj (p i)) (fun i => conj (q i)) := by
    ext a b; simp [rephase]
  obtain ⟨fc', e3', c1', c2'⟩ := xi_rephase (p := fun i => conj (p i)) (q := fun i => conj (q i))
    (fun i => by rw [norm_conj]; exact hp i) m hm 'c' (by simp) (V.map conj)
  have hff : fc' = fc := Except.ok.inj (e3'.symm.trans e3)
  subst hff
  have hph : mesonPhase (fun i => conj (p i)) (fun i => conj (q i)) m = conj (mesonPhase p q m) := by
    cases m <;> simp [mesonPhase]
  unfold amplitudePsi
  simp only [e3, ok_bind_eq, hconj, c1, c1', c2, hph]
  by_cases h0 : conj (fc' V) = 0
  · unfold sMix
    rw [h0, mul_zero, if_pos rfl, if_pos rfl]
  · apply C86_S_rephasing _ _ _ _ _ _ _ _ hu hne hd h0
    · refine mul_ne_zero ?_ h0
      rw [← norm_ne_zero_iff, norm_conj, mesonPhase_norm hp hq]; exact one_ne_zero
    · have hs := phase_sq (mesonPhase_norm hp hq m)
      have hn : conj (mesonPhase p q m) ≠ 0 := by
        rw [← norm_ne_zero_iff, norm_conj, mesonPhase_norm hp hq]; exact one_ne_zero
      rw [mul_div_mul_comm]
      congr 1
      rw [div_eq_iff hn]
      linear_combination (-mesonPhase p q m) * hs

end Verif.Mixing
