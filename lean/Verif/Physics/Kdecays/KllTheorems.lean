import Verif.Physics.Kdecays.Kll
/-!
# Theorems about `K⁰ → ℓ₁⁺ ℓ₂⁻` (C110)
-/
set_option linter.unusedVariables false
set_option linter.unusedSimpArgs false
set_option linter.unusedSectionVars false
namespace Verif.Kll
open Verif.Py Verif.Running Verif.Bll Verif.Common Verif.Ckm Complex

/-! ## Specification -/

/-- Physical parameters for one channel: the decay is kinematically allowed and nothing is divided by zero. (Specification.) -/
structure Phys (d : Inp) (K l1 l2 : String) : Prop where
  mK : 0 < d.par "m_K0"
  m1 : 0 ≤ d.par ("m_" ++ l1)
  m2 : 0 ≤ d.par ("m_" ++ l2)
  thr : d.par ("m_" ++ l1) + d.par ("m_" ++ l2) ≤ d.par "m_K0"
  s2w : d.par "s2w" ≠ 0
  mKx : d.par ("m_" ++ K) ≠ 0
  xi : xiT d ≠ 0

/-- `V_ts V_td*`, `V_cs V_cd*`. (Specification.) -/
noncomputable def lamT (V : Mat) : ℂ := V 2 1 * (starRingEnd ℂ) (V 2 0)
/-- `V_cs V_cd*`. (Specification.) -/
noncomputable def lamC (V : Mat) : ℂ := V 1 1 * (starRingEnd ℂ) (V 1 0)

/-- The SM amplitude of `C10`: top plus charm. (Specification.) -/
noncomputable def smC10 (d : Inp) : ℂ :=
  lamT d.V * ((-4.10 * (d.par "m_t" / 173.1) ^ (1.53 : ℝ) : ℝ) : ℂ) + lamC d.V * ((-0.115 / d.par "s2w" * ‖d.V 0 1‖ ^ 4 : ℝ) : ℂ)

/-- Difference of a coefficient and its chirality-flipped partner. (Specification.) -/
def diff (np : String → ℂ) (C : String) (l1 l2 : String) : ℂ := np (C ++ "_sd" ++ l1 ++ l2) - np (C ++ "p_sd" ++ l1 ++ l2)

/-- Short-distance pseudoscalar amplitude. (Specification.) -/
noncomputable def shortP (d : Inp) (np : String → ℂ) (l1 l2 : String) : ℂ :=
  ((d.par ("m_" ++ l1) + d.par ("m_" ++ l2)) / d.par "m_K0" : ℝ) * ((if l1 = l2 then smC10 d else 0) + lamT d.V * diff np "C10" l1 l2)
    + (d.par "m_K0" : ℂ) * (lamT d.V * diff np "CP" l1 l2)

/-- Short-distance scalar amplitude. (Specification.) -/
noncomputable def shortS (d : Inp) (np : String → ℂ) (l1 l2 : String) : ℂ :=
  ((d.par ("m_" ++ l2) - d.par ("m_" ++ l1)) / d.par "m_K0" : ℝ) * (lamT d.V * diff np "C9" l1 l2)
    + (d.par "m_K0" : ℂ) * (lamT d.V * diff np "CS" l1 l2)

/-- Two-photon amplitude of `K_L`. (Specification.) -/
noncomputable def longL (d : Inp) (l : String) : ℂ :=
  -((2 * d.par ("m_" ++ l) / d.par "m_KL" / d.par "s2w" : ℝ) : ℂ) * (2.02e-4 * ((d.par "chi_disp(KL->gammagamma)" : ℂ) - 5.21 * I))

/-- Two-photon amplitude of `K_S`. (Specification.) -/
noncomputable def longS (d : Inp) (l : String) : ℂ :=
  ((2 * d.par ("m_" ++ l) / d.par "m_KS" / d.par "s2w" : ℝ) : ℂ) * (2.49e-4 * (-2.821 + 1.216 * I))

/-- Branching ratio for given pseudoscalar and scalar amplitudes. (Specification.) -/
noncomputable def rate (d : Inp) (K l1 l2 : String) (P S : ℂ) : ℝ :=
  d.par ("tau_" ++ K) * (d.par "GF" ^ 2 * d.par "alpha_e" ^ 2 / (32 * Real.pi ^ 3)) * d.par "f_K0" ^ 2 * d.par "m_K0" ^ 3
    * Real.sqrt ((1 - (d.par ("m_" ++ l1) + d.par ("m_" ++ l2)) ^ 2 / d.par "m_K0" ^ 2) * (1 - (d.par ("m_" ++ l1) - d.par ("m_" ++ l2)) ^ 2 / d.par "m_K0" ^ 2))
    * ((1 - (d.par ("m_" ++ l1) - d.par ("m_" ++ l2)) ^ 2 / d.par "m_K0" ^ 2) * ‖P‖ ^ 2
      + (1 - (d.par ("m_" ++ l1) + d.par ("m_" ++ l2)) ^ 2 / d.par "m_K0" ^ 2) * ‖S‖ ^ 2)

/-! ## Lemmas -/

theorem fbind {α β : Type} {x : Except PyErr α} {f : α → Except PyErr β} {b : β} (h : (x >>= f) = .ok b) :
    ∃ a, x = .ok a ∧ f a = .ok b := by
  cases x with
  | error e => cases h
  | ok a => exact ⟨a, rfl, h⟩

theorem rel_p {M a b : ℝ} (hM : 0 < M) (ha : 0 ≤ a) (hb : 0 ≤ b) (h : a + b ≤ M) : 0 ≤ 1 - (a + b) ^ 2 / M ^ 2 := by
  rw [sub_nonneg, div_le_one (by positivity)]; exact pow_le_pow_left₀ (by linarith) h 2

theorem rel_m {M a b : ℝ} (hM : 0 < M) (ha : 0 ≤ a) (hb : 0 ≤ b) (h : a + b ≤ M) : 0 ≤ 1 - (a - b) ^ 2 / M ^ 2 := by
  rw [sub_nonneg, div_le_one (by positivity), ← sq_abs (a - b)]
  refine pow_le_pow_left₀ (abs_nonneg _) (abs_le.2 ⟨by linarith, by linarith⟩) 2

theorem kallen_fac {M a b : ℝ} (hM : 0 < M) :
    kallen (M ^ 2) (a ^ 2) (b ^ 2) = M ^ 4 * ((1 - (a + b) ^ 2 / M ^ 2) * (1 - (a - b) ^ 2 / M ^ 2)) := by
  unfold kallen; field_simp; ring

theorem sqrt_lambda {M a b : ℝ} (hM : 0 < M) (hp : 0 ≤ 1 - (a + b) ^ 2 / M ^ 2) (hm : 0 ≤ 1 - (a - b) ^ 2 / M ^ 2) :
    Real.sqrt (lambdaK (M ^ 2) (a ^ 2) (b ^ 2)) / M ^ 2 = Real.sqrt ((1 - (a + b) ^ 2 / M ^ 2) * (1 - (a - b) ^ 2 / M ^ 2)) := by
  have h0 : ¬ kallen (M ^ 2) (a ^ 2) (b ^ 2) < 0 := by
    rw [kallen_fac hM]; exact not_lt.2 (by positivity)
  unfold lambdaK; rw [if_neg h0, kallen_fac hM, Real.sqrt_mul (by positivity)]
  have : Real.sqrt (M ^ 4) = M ^ 2 := by rw [show M ^ 4 = (M ^ 2) ^ 2 by ring]; exact Real.sqrt_sq (by positivity)
  rw [this]; field_simp

theorem norm_pre (GF al : ℝ) : 2 * |4 * GF / Real.sqrt 2 * al / (4 * Real.pi)| ^ 2 / 32 / Real.pi = GF ^ 2 * al ^ 2 / (32 * Real.pi ^ 3) := by
  rw [sq_abs]
  have h2 : Real.sqrt 2 ^ 2 = 2 := Real.sq_sqrt (by norm_num)
  have h0 : Real.sqrt 2 ≠ 0 := by positivity
  have hp := Real.pi_ne_zero
  rw [show (4 * GF / Real.sqrt 2 * al / (4 * Real.pi)) ^ 2 = GF ^ 2 * al ^ 2 / (Real.sqrt 2 ^ 2 * Real.pi ^ 2) by field_simp, h2]
  field_simp

theorem pySqrt_ok {x : ℝ} (h : 0 ≤ x) : pySqrt x = .ok (Real.sqrt x) := by unfold pySqrt; rw [if_neg (not_lt.2 h)]

theorem lambdaK_nonneg (a b c : ℝ) : 0 ≤ lambdaK a b c := (C66_lambda a b c 0 le_rfl).1


theorem app3 (a l1 l2 : String) : a ++ ("sd" ++ l1 ++ l2) = a ++ "sd" ++ l1 ++ l2 := by
  simp only [String.append_assoc]

theorem keyne {a b : String} (h : a ≠ b) (l1 l2 : String) : a ++ l1 ++ l2 ≠ b ++ l1 ++ l2 := by
  intro e
  apply h
  have e2 := congrArg String.toList e
  simp only [String.toList_append] at e2
  exact String.toList_inj.1 (List.append_cancel_right (List.append_cancel_right e2))

/-- What `get_wc` returns for physical parameters. -/
theorem getWc_eq (d : Inp) (np : String → ℂ) (l1 l2 : String) (hs : d.par "s2w" ≠ 0) (hx : xiT d ≠ 0) :
    ∃ wc, getWc d np l1 l2 = .ok wc ∧
      (∀ C, C ≠ "C10_sd" → wc (C ++ l1 ++ l2) = np (C ++ l1 ++ l2)) ∧
      xiT d * wc ("C10_sd" ++ l1 ++ l2) = (if l1 = l2 then smC10 d else 0) + xiT d * np ("C10_sd" ++ l1 ++ l2) := by
  by_cases h : l1 = l2
  · refine ⟨Function.update np ("C10_sd" ++ l1 ++ l2) ((c10t d : ℂ) + xiC d / xiT d * ((-0.115 / d.par "s2w" * ‖d.V 0 1‖ ^ 4 : ℝ) : ℂ) + np ("C10_sd" ++ l1 ++ l2)), ?_, ?_, ?_⟩
    · unfold getWc c10c cDiv
      rw [if_pos h]
      simp only [Mixing.pyDiv_ne hs, if_neg hx, Bind.bind, Except.bind, pure, Except.pure]
    · intro C hC
      exact Function.update_of_ne (keyne hC l1 l2) _ _
    · rw [Function.update_self, if_pos h]
      unfold smC10 c10t
      have e1 : lamT d.V = xiT d := rfl
      have e2 : lamC d.V = xiC d := rfl
      rw [e1, e2]
      push_cast
      field_simp
  · refine ⟨np, ?_, fun C _ => rfl, ?_⟩
    · unfold getWc; rw [if_neg h]; rfl
    · rw [if_neg h, zero_add]

/-- The short-distance amplitudes computed by the code. -/
theorem amplitudes_eq (d : Inp) (np wc : String → ℂ) (l1 l2 : String) (hs : d.par "s2w" ≠ 0) (hx : xiT d ≠ 0)
    (hm : d.par "m_K0" ≠ 0) (hw : getWc d np l1 l2 = .ok wc) :
    amplitudes d wc l1 l2 = .ok (shortP d np l1 l2, shortS d np l1 l2) := by
  obtain ⟨w, h1, h2, h3⟩ := getWc_eq d np l1 l2 hs hx
  rw [hw] at h1; cases h1
  unfold amplitudes
  simp only [Mixing.pyDiv_ne hm, Bind.bind, Except.bind, pure, Except.pure, app3]
  have k := fun C hC => h2 C hC
  have e9 := h2 "C9_sd" (by decide)
  have e9p := h2 "C9p_sd" (by decide)
  have e10p := h2 "C10p_sd" (by decide)
  have eP := h2 "CP_sd" (by decide)
  have ePp := h2 "CPp_sd" (by decide)
  have eS := h2 "CS_sd" (by decide)
  have eSp := h2 "CSp_sd" (by decide)
  have l9 : ("C9_" ++ "sd" : String) = "C9_sd" := by decide
  have l9p : ("C9p_" ++ "sd" : String) = "C9p_sd" := by decide
  have l10 : ("C10_" ++ "sd" : String) = "C10_sd" := by decide
  have l10p : ("C10p_" ++ "sd" : String) = "C10p_sd" := by decide
  have lP : ("CP_" ++ "sd" : String) = "CP_sd" := by decide
  have lPp : ("CPp_" ++ "sd" : String) = "CPp_sd" := by decide
  have lS : ("CS_" ++ "sd" : String) = "CS_sd" := by decide
  have lSp : ("CSp_" ++ "sd" : String) = "CSp_sd" := by decide
  have m9 : ("C9" ++ "_sd" : String) = "C9_sd" := by decide
  have m9p : ("C9" ++ "p_sd" : String) = "C9p_sd" := by decide
  have m10 : ("C10" ++ "_sd" : String) = "C10_sd" := by decide
  have m10p : ("C10" ++ "p_sd" : String) = "C10p_sd" := by decide
  have mP : ("CP" ++ "_sd" : String) = "CP_sd" := by decide
  have mPp : ("CP" ++ "p_sd" : String) = "CPp_sd" := by decide
  have mS : ("CS" ++ "_sd" : String) = "CS_sd" := by decide
  have mSp : ("CS" ++ "p_sd" : String) = "CSp_sd" := by decide
  rw [l9, l9p, l10, l10p, lP, lPp, lS, lSp, e9, e9p, e10p, eP, ePp, eS, eSp]
  show Except.ok (_, _) = Except.ok (_, _)
  unfold shortP shortS diff
  rw [m9, m9p, m10, m10p, mP, mPp, mS, mSp]
  have e1 : lamT d.V = xiT d := rfl
  rw [e1]
  congr 2
  · push_cast
    linear_combination (((d.par ("m_" ++ l1) : ℂ) + d.par ("m_" ++ l2)) / d.par "m_K0") * h3
  · push_cast; ring

/-- Everything but the amplitudes. -/
theorem br_core (d : Inp) (np : String → ℂ) (K l1 l2 : String) (ld : Bool) (H : Phys d K l1 l2) :
    brKll d np K l1 l2 ld =
      (do let L ← ldPart d K l1 l2 ld
          if K = "KL" then .ok (rate d K l1 l2 ((shortP d np l1 l2).re + L.2) (shortS d np l1 l2).im)
          else if K = "KS" ∧ l1 = l2 then .ok (rate d K l1 l2 (shortP d np l1 l2).im ((shortS d np l1 l2).re + L.1))
          else .error .unboundLocalError) := by
  obtain ⟨wc, hw, -, -⟩ := getWc_eq d np l1 l2 H.s2w H.xi
  have hM := H.mK
  have hM2 : d.par "m_K0" ^ 2 ≠ 0 := by positivity
  have hp := rel_p hM H.m1 H.m2 H.thr
  have hm := rel_m hM H.m1 H.m2 H.thr
  have hsl := sqrt_lambda hM hp hm
  unfold brKll amplitudesEff
  rw [hw]
  simp only [Mixing.pyDiv_ne hM2, pySqrt_ok (lambdaK_nonneg _ _ _), pySqrt_ok hp, pySqrt_ok hm,
    amplitudes_eq d np wc l1 l2 H.s2w H.xi hM.ne' hw, Bind.bind, Except.bind, pure, Except.pure]
  cases hL : ldPart d K l1 l2 ld with
  | error e => rfl
  | ok L =>
    simp only []
    by_cases h1 : K = "KL"
    · rw [if_pos h1, if_pos h1]
      show Except.ok _ = Except.ok _
      congr 1
      simp only []
      rw [norm_pre, hsl, Real.sq_sqrt hp, Real.sq_sqrt hm]
      unfold rate; ring
    · rw [if_neg h1, if_neg h1]
      by_cases h2 : K = "KS" ∧ l1 = l2
      · rw [if_pos h2, if_pos h2]
        show Except.ok _ = Except.ok _
        congr 1
        simp only []
        rw [norm_pre, hsl, Real.sq_sqrt hp, Real.sq_sqrt hm]
        unfold rate; ring
      · rw [if_neg h2, if_neg h2]


theorem ldPart_lfv (d : Inp) (K : String) {l1 l2 : String} (ld : Bool) (h : l1 ≠ l2 ∨ ld = false) : ldPart d K l1 l2 ld = .ok (0, 0) := by
  unfold ldPart; rw [if_pos h]

theorem ldPart_same (d : Inp) (K l : String) (hs : d.par "s2w" ≠ 0) (hm : d.par ("m_" ++ K) ≠ 0) :
    ldPart d K l l true = .ok (((2 * d.par ("m_" ++ l) / d.par ("m_" ++ K) / d.par "s2w" : ℝ) : ℂ) * (2.49e-4 * (-2.821 + 1.216 * I)),
      -((2 * d.par ("m_" ++ l) / d.par ("m_" ++ K) / d.par "s2w" : ℝ) : ℂ) * (2.02e-4 * ((d.par "chi_disp(KL->gammagamma)" : ℂ) - 5.21 * I))) := by
  unfold ldPart amplitudesLD
  rw [if_neg (by simp)]
  simp only [Mixing.pyDiv_ne hs, Mixing.pyDiv_ne hm, Bind.bind, Except.bind, pure, Except.pure]

/-! ## The claims -/

/-- **C110 (`K_L` branching ratio).** For all physical parameters and all Wilson coefficients the `K_L` branching ratio is the rate
with the real part of the pseudoscalar and the imaginary part of the scalar short-distance amplitude, plus the two-photon
amplitude when the flavours agree. -/
theorem C110_br_KL (d : Inp) (np : String → ℂ) (l1 l2 : String) (H : Phys d "KL" l1 l2) :
    brKll d np "KL" l1 l2 true =
      .ok (rate d "KL" l1 l2 ((shortP d np l1 l2).re + if l1 = l2 then longL d l1 else 0) (shortS d np l1 l2).im) := by
  rw [br_core d np _ l1 l2 true H]
  by_cases h : l1 = l2
  · subst h
    rw [ldPart_same d "KL" l1 H.s2w H.mKx, if_pos rfl]
    rfl
  · rw [ldPart_lfv d _ _ (Or.inl h), if_neg h]
    rfl

/-- **C110 (`K_S` branching ratio).** The same for `K_S` and equal flavours, with real and imaginary parts interchanged. -/
theorem C110_br_KS (d : Inp) (np : String → ℂ) (l : String) (H : Phys d "KS" l l) :
    brKll d np "KS" l l true = .ok (rate d "KS" l l (shortP d np l l).im ((shortS d np l l).re + longS d l)) := by
  rw [br_core d np _ l l true H, ldPart_same d "KS" l H.s2w H.mKx]
  simp only [Bind.bind, Except.bind]
  rw [if_neg (by decide), if_pos (by simp)]
  rfl

/-- **C110 (finding: `BR(KS->emu,mue)` can never be computed).** For two different leptons no parameters and no Wilson coefficients
give a value for `K_S`; for physical parameters the exception is `UnboundLocalError`. -/
theorem C110_KS_lfv_unbound (d : Inp) (np : String → ℂ) (l1 l2 : String) (ld : Bool) (h : l1 ≠ l2) :
    (∀ x, brKll d np "KS" l1 l2 ld ≠ .ok x) ∧ (∀ x, predSum d np "KS" l1 l2 ≠ .ok x) ∧
    (Phys d "KS" l1 l2 → brKll d np "KS" l1 l2 ld = .error .unboundLocalError ∧ predSum d np "KS" l1 l2 = .error .unboundLocalError) := by
  have h0 : ∀ ld x, brKll d np "KS" l1 l2 ld ≠ .ok x := by
    intro ld x hx
    obtain ⟨wc, -, hx⟩ := fbind hx
    obtain ⟨_, -, hx⟩ := fbind hx
    obtain ⟨_, -, hx⟩ := fbind hx
    obtain ⟨_, -, hx⟩ := fbind hx
    obtain ⟨_, -, hx⟩ := fbind hx
    obtain ⟨_, -, hx⟩ := fbind hx
    obtain ⟨_, -, hx⟩ := fbind hx
    obtain ⟨A, hA, hx⟩ := fbind hx
    obtain ⟨_, -, hA⟩ := fbind hA
    obtain ⟨_, -, hA⟩ := fbind hA
    rw [if_neg (by decide), if_neg (fun e => h e.2)] at hA
    cases hA
  have hb : ∀ ld, Phys d "KS" l1 l2 → brKll d np "KS" l1 l2 ld = .error .unboundLocalError := by
    intro ld H
    rw [br_core d np _ l1 l2 ld H, ldPart_lfv d _ _ (Or.inl h)]
    simp only [Bind.bind, Except.bind]
    rw [if_neg (by decide), if_neg (fun e => h e.2)]
  refine ⟨h0 ld, ?_, fun H => ⟨hb ld H, ?_⟩⟩
  · intro x hx
    obtain ⟨a, ha, -⟩ := fbind hx
    exact h0 true a ha
  · unfold predSum; rw [hb true H]; rfl

/-- **C110 (registered observables).** Of the six registered observables exactly the five others have a value at every physical point. -/
theorem C110_registry (d : Inp) (np : String → ℂ) (H : ∀ K ∈ ["KL", "KS"], ∀ l1 ∈ ["e", "mu"], ∀ l2 ∈ ["e", "mu"], Phys d K l1 l2) :
    ∀ o ∈ registry, (∃ x, predict d np o.2 = .ok x) ↔ o.1 ≠ "BR(KS->emu,mue)" := by
  have hL : ∀ l1 ∈ ["e", "mu"], ∀ l2 ∈ ["e", "mu"], ∃ x, brKll d np "KL" l1 l2 true = .ok x :=
    fun l1 h1 l2 h2 => ⟨_, C110_br_KL d np l1 l2 (H "KL" (by decide) l1 h1 l2 h2)⟩
  have hS : ∀ l1 ∈ ["e", "mu"], ∃ x, brKll d np "KS" l1 l1 true = .ok x :=
    fun l1 h1 => ⟨_, C110_br_KS d np l1 (H "KS" (by decide) l1 h1 l1 h1)⟩
  intro o ho
  simp only [registry, List.mem_cons, List.not_mem_nil, or_false] at ho
  rcases ho with rfl | rfl | rfl | rfl | rfl | rfl
  · exact iff_of_true (hL "e" (by decide) "e" (by decide)) (by decide)
  · exact iff_of_true (hS "e" (by decide)) (by decide)
  · exact iff_of_true (hL "mu" (by decide) "mu" (by decide)) (by decide)
  · exact iff_of_true (hS "mu" (by decide)) (by decide)
  · refine iff_of_true ?_ (by decide)
    obtain ⟨x, hx⟩ := hL "e" (by decide) "mu" (by decide)
    obtain ⟨y, hy⟩ := hL "mu" (by decide) "e" (by decide)
    exact ⟨x + y, by show predSum _ _ _ _ _ = _; unfold predSum; rw [hx, hy]; rfl⟩
  · refine iff_of_false ?_ (by decide)
    rintro ⟨x, hx⟩
    exact (C110_KS_lfv_unbound d np "e" "mu" true (by decide)).2.1 x hx

theorem rate_nonneg (d : Inp) (K l1 l2 : String) (P S : ℂ) (H : Phys d K l1 l2) (ht : 0 ≤ d.par ("tau_" ++ K)) : 0 ≤ rate d K l1 l2 P S := by
  have hM := H.mK
  have hp := rel_p hM H.m1 H.m2 H.thr
  have hm := rel_m hM H.m1 H.m2 H.thr
  unfold rate
  have := Real.pi_pos
  refine mul_nonneg (mul_nonneg (mul_nonneg (mul_nonneg (mul_nonneg ht ?_) ?_) ?_) ?_) ?_ <;> positivity

/-- **C110 (no negative branching ratio).** -/
theorem C110_nonneg (d : Inp) (np : String → ℂ) (K l1 l2 : String) (ld : Bool) (x : ℝ) (H : Phys d K l1 l2) (ht : 0 ≤ d.par ("tau_" ++ K))
    (h : brKll d np K l1 l2 ld = .ok x) : 0 ≤ x := by
  rw [br_core d np K l1 l2 ld H] at h
  obtain ⟨L, -, h⟩ := fbind h
  by_cases h1 : K = "KL"
  · rw [if_pos h1] at h; cases h; exact rate_nonneg d _ _ _ _ _ H ht
  · rw [if_neg h1] at h
    by_cases h2 : K = "KS" ∧ l1 = l2
    · rw [if_pos h2] at h; cases h; exact rate_nonneg d _ _ _ _ _ H ht
    · rw [if_neg h2] at h; cases h

/-- **C110 (threshold).** At threshold the branching ratio is zero; below it a `ValueError` is raised (unless the Wilson
coefficients cannot be computed because of a vanishing `s2w` or CKM factor). -/
theorem C110_threshold (d : Inp) (np : String → ℂ) (l1 l2 : String) :
    (Phys d "KL" l1 l2 → d.par ("m_" ++ l1) + d.par ("m_" ++ l2) = d.par "m_K0" → brKll d np "KL" l1 l2 true = .ok 0) ∧
    (∀ K ld, 0 < d.par "m_K0" → d.par "s2w" ≠ 0 → xiT d ≠ 0 → d.par "m_K0" < d.par ("m_" ++ l1) + d.par ("m_" ++ l2) →
      brKll d np K l1 l2 ld = .error .valueError) := by
  constructor
  · intro H h
    rw [C110_br_KL d np l1 l2 H]
    have hM := H.mK.ne'
    congr 1
    unfold rate
    rw [h, div_self (by positivity), sub_self]
    simp
  · intro K ld hM hs hx h
    obtain ⟨wc, hw, -, -⟩ := getWc_eq d np l1 l2 hs hx
    have hM2 : d.par "m_K0" ^ 2 ≠ 0 := by positivity
    unfold brKll
    rw [hw]
    simp only [Mixing.pyDiv_ne hM2, pySqrt_ok (lambdaK_nonneg _ _ _), Bind.bind, Except.bind, pure, Except.pure]
    have h3 : 1 - (d.par ("m_" ++ l1) + d.par ("m_" ++ l2)) ^ 2 / d.par "m_K0" ^ 2 < 0 := by
      rw [sub_neg, one_lt_div (by positivity)]
      exact pow_lt_pow_left₀ h hM.le (by norm_num)
    unfold pySqrt
    rw [if_pos h3]

/-- **C110 (only left–right differences).** The result depends on the Wilson coefficients only through the four differences
`C − C'`; `C9` matters only for different flavours. -/
theorem C110_differences (d : Inp) (np np' : String → ℂ) (K l1 l2 : String) (ld : Bool) (H : Phys d K l1 l2)
    (h9 : l1 ≠ l2 → diff np "C9" l1 l2 = diff np' "C9" l1 l2) (h10 : diff np "C10" l1 l2 = diff np' "C10" l1 l2)
    (hP : diff np "CP" l1 l2 = diff np' "CP" l1 l2) (hS : diff np "CS" l1 l2 = diff np' "CS" l1 l2) :
    brKll d np K l1 l2 ld = brKll d np' K l1 l2 ld := by
  have e1 : shortP d np l1 l2 = shortP d np' l1 l2 := by unfold shortP; rw [h10, hP]
  have e2 : shortS d np l1 l2 = shortS d np' l1 l2 := by
    unfold shortS; rw [hS]
    by_cases h : l1 = l2
    · subst h; rw [sub_self]; simp
    · rw [h9 h]
  rw [br_core d np K l1 l2 ld H, br_core d np' K l1 l2 ld H, e1, e2]

/-- **C110 (charge sum).** The observable summed over the charges does not depend on the order of the leptons, and it vanishes
if the Wilson coefficients of both flavour-violating sectors are chirality symmetric — in particular in the Standard Model. -/
theorem C110_lfv_sum (d : Inp) (np : String → ℂ) (l1 l2 : String) (h : l1 ≠ l2) (H : Phys d "KL" l1 l2) :
    predSum d np "KL" l1 l2 = predSum d np "KL" l2 l1 ∧
    ((∀ C ∈ ["C9", "C10", "CP", "CS"], diff np C l1 l2 = 0 ∧ diff np C l2 l1 = 0) → predSum d np "KL" l1 l2 = .ok 0) := by
  have H' : Phys d "KL" l2 l1 := ⟨H.mK, H.m2, H.m1, by rw [add_comm]; exact H.thr, H.s2w, H.mKx, H.xi⟩
  unfold predSum
  rw [C110_br_KL d np l1 l2 H, C110_br_KL d np l2 l1 H']
  refine ⟨?_, fun hz => ?_⟩
  · show Except.ok _ = Except.ok _
    rw [add_comm]
  · show Except.ok _ = Except.ok _
    have hz' := fun C hC => hz C hC
    unfold shortP shortS
    rw [if_neg h, if_neg (Ne.symm h), if_neg h, if_neg (Ne.symm h), (hz "C9" (by decide)).1, (hz "C10" (by decide)).1, (hz "CP" (by decide)).1, (hz "CS" (by decide)).1,
      (hz "C9" (by decide)).2, (hz "C10" (by decide)).2, (hz "CP" (by decide)).2, (hz "CS" (by decide)).2]
    unfold rate
    simp

/-- **C110 (short-distance sum rule).** Without the long-distance part, `K_L` and `K_S` share the short-distance rate: the two decay
rates `BR/τ` add up to the rate of the full complex amplitudes. -/
theorem C110_sum_rule (d : Inp) (np : String → ℂ) (l : String) (HL : Phys d "KL" l l) (HS : Phys d "KS" l l) (tL : d.par "tau_KL" ≠ 0) (tS : d.par "tau_KS" ≠ 0) :
    ∃ x y, brKll d np "KL" l l false = .ok x ∧ brKll d np "KS" l l false = .ok y ∧
      x / d.par "tau_KL" + y / d.par "tau_KS" = rate d "KL" l l (shortP d np l l) (shortS d np l l) / d.par "tau_KL" := by
  refine ⟨rate d "KL" l l (shortP d np l l).re (shortS d np l l).im, rate d "KS" l l (shortP d np l l).im (shortS d np l l).re, ?_, ?_, ?_⟩
  · rw [br_core d np _ l l false HL, ldPart_lfv d _ _ (Or.inr rfl)]
    simp only [Bind.bind, Except.bind, add_zero]; rfl
  · rw [br_core d np _ l l false HS, ldPart_lfv d _ _ (Or.inr rfl)]
    simp only [Bind.bind, Except.bind, add_zero]
    rw [if_neg (by decide), if_pos (by simp)]
  · have n1 : ∀ z : ℂ, ‖z‖ ^ 2 = z.re ^ 2 + z.im ^ 2 := fun z => by rw [← normSq_eq_norm_sq, normSq_apply]; ring
    have n2 : ∀ r : ℝ, ‖(r : ℂ)‖ ^ 2 = r ^ 2 := fun r => by rw [n1]; simp
    have kL : ("tau_" ++ "KL" : String) = "tau_KL" := by decide
    have kS : ("tau_" ++ "KS" : String) = "tau_KS" := by decide
    unfold rate
    rw [kL, kS, n2, n2, n2, n2, n1 (shortP d np l l), n1 (shortS d np l l)]
    generalize Real.sqrt _ = s
    generalize (1 - (d.par ("m_" ++ l) - d.par ("m_" ++ l)) ^ 2 / d.par "m_K0" ^ 2) = b
    generalize (1 - (d.par ("m_" ++ l) + d.par ("m_" ++ l)) ^ 2 / d.par "m_K0" ^ 2) = c
    generalize (d.par "GF" ^ 2 * d.par "alpha_e" ^ 2 / (32 * Real.pi ^ 3)) = g
    field_simp
    ring

/-- **C110 (helicity suppression).** With only axial-vector interactions — in particular in the Standard Model — and without the
long-distance part, `BR / (m_l² β_l)` is the same for all leptons, `β_l = √(1 − 4 m_l²/m_K²)`. -/
theorem C110_helicity (d : Inp) (np : String → ℂ) (l l' : String) (H : Phys d "KL" l l) (H' : Phys d "KL" l' l')
    (hs : ∀ C ∈ ["CP", "CS"], diff np C l l = 0 ∧ diff np C l' l' = 0) (hu : diff np "C10" l l = diff np "C10" l' l') :
    ∃ x y, brKll d np "KL" l l false = .ok x ∧ brKll d np "KL" l' l' false = .ok y ∧
      x * (d.par ("m_" ++ l') ^ 2 * Real.sqrt (1 - 4 * d.par ("m_" ++ l') ^ 2 / d.par "m_K0" ^ 2))
        = y * (d.par ("m_" ++ l) ^ 2 * Real.sqrt (1 - 4 * d.par ("m_" ++ l) ^ 2 / d.par "m_K0" ^ 2)) := by
  refine ⟨rate d "KL" l l (shortP d np l l).re (shortS d np l l).im, rate d "KL" l' l' (shortP d np l' l').re (shortS d np l' l').im, ?_, ?_, ?_⟩
  · rw [br_core d np _ l l false H, ldPart_lfv d _ _ (Or.inr rfl)]
    simp only [Bind.bind, Except.bind, add_zero]; rfl
  · rw [br_core d np _ l' l' false H', ldPart_lfv d _ _ (Or.inr rfl)]
    simp only [Bind.bind, Except.bind, add_zero]; rfl
  · have n2 : ∀ r : ℝ, ‖(r : ℂ)‖ ^ 2 = r ^ 2 := fun r => by rw [← normSq_eq_norm_sq, normSq_apply]; simp; ring
    unfold shortP shortS rate
    rw [(hs "CP" (by decide)).1, (hs "CP" (by decide)).2, (hs "CS" (by decide)).1, (hs "CS" (by decide)).2, hu, n2, n2, n2, n2]
    simp only [sub_self, zero_div, mul_zero, add_zero, Complex.ofReal_zero, zero_mul, if_true, Complex.zero_im, if_pos, Complex.re_ofReal_mul]
    have a1 : ∀ m : ℝ, (m + m) ^ 2 = 4 * m ^ 2 := fun m => by ring
    simp only [a1, ne_eq, OfNat.ofNat_ne_zero, not_false_eq_true, zero_pow, zero_div, sub_zero, mul_one]
    ring

/-- **C110 (phase convention).** The split between `K_L` and `K_S` is tied to the phase convention of the CKM matrix: multiplying
the strange-quark column by `i`, which changes no physical quantity, exchanges the short-distance rates of `K_L` and `K_S`. Rephasings of the
up-type quarks, and of `d` and `s` together, change nothing. -/
theorem C110_phase_convention (d : Inp) (np : String → ℂ) (l : String) (HL : Phys d "KL" l l) (HS : Phys d "KS" l l) :
    (∃ x y, brKll ⟨d.par, fun i j => d.V i j * if j = 1 then I else 1⟩ np "KL" l l false = .ok x ∧ brKll d np "KS" l l false = .ok y ∧
      x * d.par "tau_KS" = y * d.par "tau_KL") ∧
    ∀ (p : Fin 3 → ℂ) (q : ℂ) (K : String) (ld : Bool), (∀ i, ‖p i‖ = 1) → ‖q‖ = 1 → Phys d K l l →
      brKll ⟨d.par, fun i j => p i * d.V i j * q⟩ np K l l ld = brKll d np K l l ld := by
  have n0 : ∀ z : ℂ, ‖z‖ = 1 → z * (starRingEnd ℂ) z = 1 := fun z hz => by rw [mul_conj, normSq_eq_norm_sq, hz]; simp
  constructor
  · have eT : lamT (fun i j => d.V i j * if j = 1 then I else 1) = I * lamT d.V := by unfold lamT; simp; ring
    have eC : lamC (fun i j => d.V i j * if j = 1 then I else 1) = I * lamC d.V := by unfold lamC; simp; ring
    have HL' : Phys ⟨d.par, fun i j => d.V i j * if j = 1 then I else 1⟩ "KL" l l :=
      ⟨HL.mK, HL.m1, HL.m2, HL.thr, HL.s2w, HL.mKx, by
        have := HL.xi
        show lamT (fun i j => d.V i j * if j = 1 then I else 1) ≠ 0
        rw [eT]; exact mul_ne_zero I_ne_zero this⟩
    have eM : smC10 ⟨d.par, fun i j => d.V i j * if j = 1 then I else 1⟩ = I * smC10 d := by
      have hn : ‖(fun i j => d.V i j * if j = 1 then I else 1 : Mat) 0 1‖ = ‖d.V 0 1‖ := by
        show ‖d.V 0 1 * (if (1 : Fin 3) = 1 then I else 1)‖ = ‖d.V 0 1‖
        simp
      unfold smC10; rw [eT, eC, hn]; ring
    have eP : shortP ⟨d.par, fun i j => d.V i j * if j = 1 then I else 1⟩ np l l = I * shortP d np l l := by
      unfold shortP; rw [eM, if_pos rfl, if_pos rfl]; simp only []; rw [eT]; ring
    have eS : shortS ⟨d.par, fun i j => d.V i j * if j = 1 then I else 1⟩ np l l = I * shortS d np l l := by
      unfold shortS; simp only []; rw [eT]; ring
    refine ⟨rate d "KL" l l ((-(shortP d np l l).im : ℝ) : ℂ) (shortS d np l l).re, rate d "KS" l l (shortP d np l l).im (shortS d np l l).re, ?_, ?_, ?_⟩
    · rw [br_core _ np _ l l false HL', ldPart_lfv _ _ _ (Or.inr rfl), eP, eS]
      simp only [Bind.bind, Except.bind, add_zero]
      rw [if_pos (by trivial)]
      simp only [Complex.I_mul_re, Complex.I_mul_im]
      rfl
    · rw [br_core d np _ l l false HS, ldPart_lfv d _ _ (Or.inr rfl)]
      simp only [Bind.bind, Except.bind, add_zero]
      rw [if_neg (by decide), if_pos (by simp)]
    · have kL : ("tau_" ++ "KL" : String) = "tau_KL" := by decide
      have kS : ("tau_" ++ "KS" : String) = "tau_KS" := by decide
      unfold rate
      rw [kL, kS, ofReal_neg, norm_neg]
      ring
  · intro p q K ld hp hq H
    have eT : lamT (fun i j => p i * d.V i j * q) = lamT d.V := by
      unfold lamT; simp only [map_mul]
      linear_combination (d.V 2 1 * (starRingEnd ℂ) (d.V 2 0)) * ((q * (starRingEnd ℂ) q) * n0 _ (hp 2) + n0 q hq)
    have eC : lamC (fun i j => p i * d.V i j * q) = lamC d.V := by
      unfold lamC; simp only [map_mul]
      linear_combination (d.V 1 1 * (starRingEnd ℂ) (d.V 1 0)) * ((q * (starRingEnd ℂ) q) * n0 _ (hp 1) + n0 q hq)
    have H' : Phys ⟨d.par, fun i j => p i * d.V i j * q⟩ K l l :=
      ⟨H.mK, H.m1, H.m2, H.thr, H.s2w, H.mKx, by
        have := H.xi
        show lamT (fun i j => p i * d.V i j * q) ≠ 0
        rw [eT]; exact this⟩
    have eM : smC10 ⟨d.par, fun i j => p i * d.V i j * q⟩ = smC10 d := by
      unfold smC10; simp only []; rw [eT, eC, norm_mul, norm_mul, hp, hq, one_mul, mul_one]
    have eP : shortP ⟨d.par, fun i j => p i * d.V i j * q⟩ np l l = shortP d np l l := by
      unfold shortP; rw [eM]; simp only []; rw [eT]
    have eS : shortS ⟨d.par, fun i j => p i * d.V i j * q⟩ np l l = shortS d np l l := by
      unfold shortS; simp only []; rw [eT]
    rw [br_core _ np K l l ld H', br_core d np K l l ld H, eP, eS]
    rfl

/-! ## A concrete case -/

/-- A point with a non-vanishing CKM factor, `m_K = 1/2`, `m_e = 1/1000`, `m_μ = 1/10`. (Example.) (Specification.) -/
noncomputable def exInp : Inp :=
  ⟨fun k => if k = "m_K0" ∨ k = "m_KL" ∨ k = "m_KS" then 1 / 2 else if k = "m_e" then 1 / 1000 else if k = "m_mu" then 1 / 10 else 1,
   fun i j => (1 + I) ^ (i.val + 2 * j.val)⟩

theorem exInp_phys : ∀ K ∈ ["KL", "KS"], ∀ l1 ∈ ["e", "mu"], ∀ l2 ∈ ["e", "mu"], Phys exInp K l1 l2 := by
  have hx : xiT exInp ≠ 0 := by
    have h1 : (1 + I : ℂ) ≠ 0 := by
      intro h; have := congrArg Complex.re h; simp at this
    unfold xiT xiKlIj exInp
    exact mul_ne_zero (pow_ne_zero _ h1) ((map_ne_zero _).2 (pow_ne_zero _ h1))
  intro K hK l1 h1 l2 h2
  simp only [List.mem_cons, List.not_mem_nil, or_false] at hK h1 h2
  have k0 : exInp.par "m_K0" = 1 / 2 := by simp [exInp]
  have kL : exInp.par ("m_" ++ "KL") = 1 / 2 := by simp [exInp]
  have kS : exInp.par ("m_" ++ "KS") = 1 / 2 := by simp [exInp]
  have ke : exInp.par ("m_" ++ "e") = 1 / 1000 := by simp [exInp]
  have km : exInp.par ("m_" ++ "mu") = 1 / 10 := by simp [exInp]
  have ks : exInp.par "s2w" = 1 := by simp [exInp]
  refine ⟨by rw [k0]; norm_num, ?_, ?_, ?_, by rw [ks]; norm_num, ?_, hx⟩
  · rcases h1 with rfl | rfl <;> simp only [ke, km] <;> norm_num
  · rcases h2 with rfl | rfl <;> simp only [ke, km] <;> norm_num
  · rcases h1 with rfl | rfl <;> rcases h2 with rfl | rfl <;> simp only [ke, km, k0] <;> norm_num
  · rcases hK with rfl | rfl <;> simp only [kL, kS] <;> norm_num

/-- The registry statement applies: the last observable fails, the first has a value. -/
example (np : String → ℂ) : (∃ x, predict exInp np ("KL", "e", "e", false) = .ok x) ∧ ∀ x, predict exInp np ("KS", "e", "mu", true) ≠ .ok x := by
  refine ⟨(C110_registry exInp np exInp_phys ("BR(KL->ee)", _) (by decide)).2 (by decide), fun x hx => ?_⟩
  exact (C110_registry exInp np exInp_phys ("BR(KS->emu,mue)", _) (by decide)).1 ⟨x, hx⟩ rfl

end Verif.Kll
