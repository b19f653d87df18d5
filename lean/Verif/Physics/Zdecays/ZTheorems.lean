import Verif.Physics.Zdecays.Z
import Mathlib.Analysis.Real.Pi.Bounds
import Mathlib.Analysis.Complex.ExponentialBounds
/-!
# C98: the Z pole observables

Theorems about the model in `Verif.Physics.Zdecays.Z`.
-/
set_option linter.unusedVariables false
set_option linter.unusedSimpArgs false
namespace Verif.Zpole
open Fm

local notation "conj" => starRingEnd ℂ

theorem nsq (z : ℂ) : ‖z‖ ^ 2 = z.re ^ 2 + z.im ^ 2 := by
  rw [← Complex.normSq_eq_norm_sq, Complex.normSq_apply]; ring

theorem sort2_le (i j : Nat) : (sort2 i j).1 ≤ (sort2 i j).2 := by
  unfold sort2; split <;> simp only <;> omega

theorem sort2_comm (i j : Nat) : sort2 i j = sort2 j i := by
  unfold sort2; split_ifs <;> simp only [Prod.mk.injEq] <;> omega

theorem sort2_min (i j : Nat) : sort2 i j = (min i j, max i j) := by
  unfold sort2; split_ifs with h <;> simp only [Prod.mk.injEq] <;> omega

theorem shift_eq (f1 f2 : Fm) (v : Nat → Nat → ℂ) (w : ℂ) :
    shift f1 f2 v w = v (min f1.gen f2.gen) (max f1.gen f2.gen) + if f1 = f2 then w else 0 := by
  have h := sort2_le f1.gen f2.gen
  simp only [shift, if_neg (Nat.not_lt.mpr h), gt_iff_lt]
  rw [sort2_min]
  split_ifs <;> simp

/-- **C98: the shifts of the couplings, uniformly for all fermions.** For two fermions of the same kind the vector (axial)
coupling is shifted by minus (the difference of) the left- and right-handed Higgs-current operators over `4√2 G_F`; equal
fermions get in addition the common rescaling of the SM coupling and, for the vector coupling, `-Q` times the shift of the
weak mixing angle. -/
theorem C98_coupling_shifts (p : Par) (C : WC) (f1 f2 : Fm) (h : f1.sec = f2.sec) :
    dgV f1 f2 p C =
      -(leftC C f1 (min f1.gen f2.gen) (max f1.gen f2.gen) + rightC C f1 (min f1.gen f2.gen) (max f1.gen f2.gen))
          / (4 * Real.sqrt 2 * p.GF : ℝ)
        + (if f1 = f2 then dgZb p C * (gVSM f1 p : ℂ) - (f1.q : ℂ) * dsh2 p C else 0) ∧
    dgA f1 f2 p C =
      (rightC C f1 (min f1.gen f2.gen) (max f1.gen f2.gen) - leftC C f1 (min f1.gen f2.gen) (max f1.gen f2.gen))
          / (4 * Real.sqrt 2 * p.GF : ℝ)
        + (if f1 = f2 then dgZb p C * (gASM f1 : ℂ) else 0) := by
  have hq : (f1.q : ℂ) = match f1.sec with | .l => -1 | .nu => 0 | .u => 2 / 3 | .d => -1 / 3 := by
    cases f1 <;> simp [Fm.q, Fm.sec]
  have hnu : f1.sec = .nu → gVSM f1 p = gASM f1 := by
    cases f1 <;> simp [Fm.sec, gVSM, gASM, Fm.q]
  rw [hq]
  cases hs : f1.sec
  · simp only [dgV, dgA, hs, dgVl, dgAl, shift_eq, leftC, rightC, nrm]
    constructor <;> split_ifs <;> ring
  · simp only [dgV, dgA, hs, dgVnu, dgAnu, shift_eq, leftC, rightC, nrm, hnu hs]
    constructor <;> split_ifs <;> ring
  · simp only [dgV, dgA, hs, dgVu, dgAu, shift_eq, leftC, rightC, nrm]
    constructor <;> split_ifs <;> ring
  · simp only [dgV, dgA, hs, dgVd, dgAd, shift_eq, leftC, rightC, nrm]
    constructor <;> split_ifs <;> ring

/-- **C98: the weak mixing angle** used for the input scheme solves `s²(1-s²) = πα/(√2 G_F m_Z²)` and is the smaller root. -/
theorem C98_mixing_angle (p : Par) (h : 4 * Real.pi * p.alphaE / (Real.sqrt 2 * p.GF * p.mZ ^ 2) ≤ 1)
    (h0 : 0 ≤ 4 * Real.pi * p.alphaE / (Real.sqrt 2 * p.GF * p.mZ ^ 2)) :
    sh2 p * (1 - sh2 p) = Real.pi * p.alphaE / (Real.sqrt 2 * p.GF * p.mZ ^ 2) ∧ 0 ≤ sh2 p ∧ sh2 p ≤ 1 / 2 := by
  have hs := Real.sq_sqrt (show 0 ≤ 1 - 4 * Real.pi * p.alphaE / (Real.sqrt 2 * p.GF * p.mZ ^ 2) by linarith)
  have hp := Real.sqrt_nonneg (1 - 4 * Real.pi * p.alphaE / (Real.sqrt 2 * p.GF * p.mZ ^ 2))
  have h1 : Real.sqrt (1 - 4 * Real.pi * p.alphaE / (Real.sqrt 2 * p.GF * p.mZ ^ 2)) ≤ 1 := by
    rw [Real.sqrt_le_left (by norm_num)]; linarith
  have e : 4 * Real.pi * p.alphaE / (Real.sqrt 2 * p.GF * p.mZ ^ 2) = 4 * (Real.pi * p.alphaE / (Real.sqrt 2 * p.GF * p.mZ ^ 2)) := by ring
  unfold sh2
  refine ⟨?_, by linarith, by linarith⟩
  rw [e] at hs ⊢
  linear_combination (-1 / 4 : ℝ) * hs

/-- All shifts vanish without new physics. -/
theorem shifts_noNP (p : Par) (f1 f2 : Fm) : dgV f1 f2 p noNP = 0 ∧ dgA f1 f2 p noNP = 0 := by
  have hb : dgZb p noNP = 0 := by simp [dgZb, dGF, dmZ2, muon, noNP]
  have hs : dsh2 p noNP = 0 := by simp [dsh2, muon, noNP]
  constructor <;> cases h : f1.sec <;>
    simp [dgV, dgA, h, dgVl, dgVnu, dgVu, dgVd, dgAl, dgAnu, dgAu, dgAd, shift_eq, hb, hs, noNP]

/-- **C98: partial widths.** The width into `f f̄` is the SM width plus the change of `|g_V|² + |g_A|²` times
`√2 G_F m_Z³ N_c/(3π)`; it is never smaller than the SM width minus the tree-level SM width. -/
theorem C98_width_flavour_diagonal (p : Par) (C : WC) (f : Fm) :
    gammaZ p C f f = gammaSM p f + Real.sqrt 2 * p.GF * p.mZ ^ 3 / (3 * Real.pi) * f.nc *
      (‖(gVSM f p : ℂ) + dgV f f p C‖ ^ 2 + ‖(gASM f : ℂ) + dgA f f p C‖ ^ 2 - gVSM f p ^ 2 - gASM f ^ 2) ∧
    gammaZ p noNP f f = gammaSM p f := by
  constructor
  · simp only [gammaZ, if_true, gammaNP, nsq, Complex.add_re, Complex.add_im, Complex.mul_re, Complex.ofReal_re,
      Complex.ofReal_im]
    ring
  · simp [gammaZ, gammaNP, shifts_noNP]

/-- **C98: the NP effect on a flavour-conserving width is bounded from below** by minus the tree-level SM width. -/
theorem C98_width_lower_bound (p : Par) (C : WC) (f : Fm) (hG : 0 ≤ p.GF) (hm : 0 ≤ p.mZ) :
    gammaSM p f - Real.sqrt 2 * p.GF * p.mZ ^ 3 / (3 * Real.pi) * f.nc * (gVSM f p ^ 2 + gASM f ^ 2) ≤ gammaZ p C f f := by
  rw [(C98_width_flavour_diagonal p C f).1]
  have hn : 0 ≤ f.nc := by cases f <;> simp [Fm.nc, Fm.sec]
  have hp : 0 ≤ Real.sqrt 2 * p.GF * p.mZ ^ 3 / (3 * Real.pi) * f.nc := by positivity
  have := mul_nonneg hp (add_nonneg (sq_nonneg ‖(gVSM f p : ℂ) + dgV f f p C‖) (sq_nonneg ‖(gASM f : ℂ) + dgA f f p C‖))
  nlinarith

theorem nc_pos (f : Fm) : 0 < f.nc := by cases f <;> norm_num [Fm.nc, Fm.sec]

/-- The flavour-changing width in terms of the operators. -/
theorem width_fcnc (p : Par) (C : WC) (f1 f2 : Fm) (hs : f1.sec = f2.sec) (h : f1 ≠ f2) (hG : p.GF ≠ 0) :
    gammaZ p C f1 f2 = p.mZ ^ 3 * f1.nc / (24 * Real.sqrt 2 * Real.pi * p.GF) *
      (‖leftC C f1 (min f1.gen f2.gen) (max f1.gen f2.gen)‖ ^ 2
        + ‖rightC C f1 (min f1.gen f2.gen) (max f1.gen f2.gen)‖ ^ 2) := by
  obtain ⟨hV, hA⟩ := C98_coupling_shifts p C f1 f2 hs
  simp only [if_neg h, add_zero] at hV hA
  have h2 : Real.sqrt 2 ^ 2 = 2 := Real.sq_sqrt (by norm_num)
  have h20 : Real.sqrt 2 ≠ 0 := by positivity
  have hpi := Real.pi_ne_zero
  simp only [gammaZ, if_neg h, gammaNP, hV, hA, norm_div, norm_neg, Complex.norm_real, div_pow, Complex.ofReal_zero, zero_mul,
    Complex.zero_re, mul_zero, zero_add, Real.norm_eq_abs, sq_abs]
  generalize leftC C f1 (min f1.gen f2.gen) (max f1.gen f2.gen) = L
  generalize rightC C f1 (min f1.gen f2.gen) (max f1.gen f2.gen) = R
  have par : ‖L + R‖ ^ 2 + ‖R - L‖ ^ 2 = 2 * (‖L‖ ^ 2 + ‖R‖ ^ 2) := by
    simp only [nsq, Complex.add_re, Complex.add_im, Complex.sub_re, Complex.sub_im]; ring
  rw [← add_div, par]
  field_simp
  ring

/-- **C98: flavour-changing Z decays.** The width of `Z → f₁ f̄₂`, `f₁ ≠ f₂`, is
`m_Z³ N_c (|C_L|² + |C_R|²)/(24√2 π G_F)`: it is not negative, equal for the two charge combinations, independent of every
flavour-conserving operator and of the SM couplings, and it vanishes exactly if both coefficients do. -/
theorem C98_fcnc (p : Par) (C : WC) (f1 f2 : Fm) (hs : f1.sec = f2.sec) (h : f1 ≠ f2) (hG : 0 < p.GF) (hm : 0 < p.mZ) :
    (gammaZ p C f1 f2 = p.mZ ^ 3 * f1.nc / (24 * Real.sqrt 2 * Real.pi * p.GF) *
      (‖leftC C f1 (min f1.gen f2.gen) (max f1.gen f2.gen)‖ ^ 2
        + ‖rightC C f1 (min f1.gen f2.gen) (max f1.gen f2.gen)‖ ^ 2)) ∧
    0 ≤ gammaZ p C f1 f2 ∧ gammaZ p C f2 f1 = gammaZ p C f1 f2 ∧
    (gammaZ p C f1 f2 = 0 ↔ leftC C f1 (min f1.gen f2.gen) (max f1.gen f2.gen) = 0 ∧
      rightC C f1 (min f1.gen f2.gen) (max f1.gen f2.gen) = 0) := by
  have w := width_fcnc p C f1 f2 hs h hG.ne'
  have w' := width_fcnc p C f2 f1 hs.symm (Ne.symm h) hG.ne'
  have hk : 0 < p.mZ ^ 3 * f1.nc / (24 * Real.sqrt 2 * Real.pi * p.GF) := by
    have := nc_pos f1
    have := Real.pi_pos
    positivity
  refine ⟨w, w ▸ by positivity, ?_, ?_⟩
  · rw [w, w', Nat.min_comm, Nat.max_comm]
    have : leftC C f2 = leftC C f1 := by unfold leftC; rw [hs]
    have h' : rightC C f2 = rightC C f1 := by unfold rightC; rw [hs]
    have h'' : f2.nc = f1.nc := by unfold Fm.nc; rw [hs]
    rw [this, h', h'']
  · rw [w, mul_eq_zero]
    constructor
    · rintro (h | h)
      · exact absurd h hk.ne'
      · have a := sq_nonneg ‖leftC C f1 (min f1.gen f2.gen) (max f1.gen f2.gen)‖
        have b := sq_nonneg ‖rightC C f1 (min f1.gen f2.gen) (max f1.gen f2.gen)‖
        exact ⟨norm_eq_zero.mp (pow_eq_zero_iff (two_ne_zero) |>.mp (le_antisymm (by linarith) a)),
          norm_eq_zero.mp (pow_eq_zero_iff (two_ne_zero) |>.mp (le_antisymm (by linarith) b))⟩
    · rintro ⟨a, b⟩; right; simp [a, b]

/-- **C98: lepton flavour violation.** `BR(Z->l1l2)` is twice the lifetime times the width of one charge combination, and
vanishes exactly if the operators with these two flavours do (up to the combination `phil1 + phil3`). -/
theorem C98_lfv (p : Par) (C : WC) (hG : 0 < p.GF) (hm : 0 < p.mZ) (ht : 0 < p.tauZ) :
    (∀ f1 f2 : Fm, (f1, f2) ∈ [(e, mu), (e, tau), (mu, tau)] → brAv p C f1 f2 = 2 * (p.tauZ * gammaZ p C f1 f2) ∧
      0 ≤ brAv p C f1 f2) ∧
    (brAv p C e mu = 0 ↔ C "phil1_12" + C "phil3_12" = 0 ∧ C "phie_12" = 0) ∧
    (brAv p C e tau = 0 ↔ C "phil1_13" + C "phil3_13" = 0 ∧ C "phie_13" = 0) ∧
    (brAv p C mu tau = 0 ↔ C "phil1_23" + C "phil3_23" = 0 ∧ C "phie_23" = 0) := by
  have key' : ∀ f1 f2 : Fm, f1.sec = f2.sec → f1 ≠ f2 → brAv p C f1 f2 = 2 * (p.tauZ * gammaZ p C f1 f2) ∧
      0 ≤ brAv p C f1 f2 := by
    intro f1 f2 hs h
    obtain ⟨-, h0, hsym, -⟩ := C98_fcnc p C f1 f2 hs h hG hm
    have : brAv p C f1 f2 = 2 * (p.tauZ * gammaZ p C f1 f2) := by unfold brAv; rw [hsym]; ring
    exact ⟨this, this ▸ by positivity⟩
  have z : ∀ f1 f2 : Fm, f1.sec = f2.sec → f1 ≠ f2 → (brAv p C f1 f2 = 0 ↔
      leftC C f1 (min f1.gen f2.gen) (max f1.gen f2.gen) = 0 ∧ rightC C f1 (min f1.gen f2.gen) (max f1.gen f2.gen) = 0) := by
    intro f1 f2 hs h
    rw [← (C98_fcnc p C f1 f2 hs h hG hm).2.2.2, (key' f1 f2 hs h).1]
    constructor
    · intro h0
      rcases mul_eq_zero.mp h0 with h0 | h0
      · norm_num at h0
      · exact (mul_eq_zero.mp h0).resolve_left ht.ne'
    · intro h0; rw [h0]; ring
  refine ⟨?_, z e mu rfl (by decide), z e tau rfl (by decide), z mu tau rfl (by decide)⟩
  intro f1 f2 hm
  simp only [List.mem_cons, Prod.mk.injEq, List.not_mem_nil, or_false] at hm
  rcases hm with ⟨rfl, rfl⟩ | ⟨rfl, rfl⟩ | ⟨rfl, rfl⟩ <;> exact key' _ _ rfl (by decide)

/-- **C98: the SM widths.** At the reference inputs of the parametrisation each partial width is its tabulated value plus the
nuisance parameter of its class, electrons and muons, `d` and `s`, and the three neutrinos share theirs. -/
theorem C98_sm_widths (p : Par) :
    gammaSM p e = gammaSM p mu ∧ gammaSM p d = gammaSM p s ∧ gammaSM p nue = gammaSM p numu ∧
    gammaSM p numu = gammaSM p nutau ∧
    (p.mh = 125.7 → p.mt = 173.2 → p.alphas = 0.1184 → p.mZ = 91.1876 →
      gammaSM p e = 0.083966 + p.delta "delta_Gammae,mu" ∧ gammaSM p tau = 0.083776 + p.delta "delta_Gammatau" ∧
      gammaSM p nue = 0.167157 + p.delta "delta_Gammanu" ∧ gammaSM p u = 0.299936 + p.delta "delta_Gammau" ∧
      gammaSM p c = 0.299860 + p.delta "delta_Gammac" ∧ gammaSM p d = 0.382770 + p.delta "delta_Gammad,s" ∧
      gammaSM p b = 0.375724 + p.delta "delta_Gammab") := by
  refine ⟨rfl, rfl, rfl, rfl, ?_⟩
  intro h1 h2 h3 h4
  have dn : ∀ r : Row, "delta_" ++ r.name = match r with
      | .emu => "delta_Gammae,mu" | .tau => "delta_Gammatau" | .nu => "delta_Gammanu" | .u => "delta_Gammau"
      | .c => "delta_Gammac" | .ds => "delta_Gammad,s" | .b => "delta_Gammab" := by
    intro r; cases r <;> decide
  refine ⟨?_, ?_, ?_, ?_, ?_, ?_, ?_⟩ <;>
    simp only [gammaSM, rowOf, dn, zobs, cdict, h1, h2, h3, h4] <;> norm_num

/-- **C98: response of the SM widths.** Every SM width except that of `b` grows with the top mass, and every one falls with the
Higgs mass (at fixed other inputs, and `alpha_s` not below its reference value). -/
theorem C98_sm_response (p p' : Par) (f : Fm) (hZ : p'.mZ = p.mZ) (ha : p'.alphas = p.alphas) (hd : p'.delta = p.delta) :
    (p'.mt = p.mt → 0 < p.mh → p.mh < p'.mh → gammaSM p' f < gammaSM p f) ∧
    (p'.mh = p.mh → 0 < p.mt → p.mt < p'.mt → 0.1184 ≤ p.alphas → f ≠ b → gammaSM p f < gammaSM p' f) := by
  constructor
  · intro hmt h0 hh
    have hlog : Real.log (p.mh / 125.7) < Real.log (p'.mh / 125.7) := by
      apply Real.log_lt_log (by positivity)
      exact div_lt_div_of_pos_right hh (by norm_num)
    simp only [gammaSM, zobs, hZ, ha, hd, hmt]
    generalize Real.log (p.mh / 125.7) = L at *
    generalize Real.log (p'.mh / 125.7) = L' at *
    generalize (p.mt / 173.2) ^ 2 - 1 = T
    generalize p.alphas / 0.1184 - 1 = A
    generalize p.mZ / 91.1876 - 1 = Z
    cases f <;> simp [rowOf, cdict] <;> nlinarith
  · intro hmh h0 hh hal hb
    have ht : (p.mt / 173.2) ^ 2 - 1 < (p'.mt / 173.2) ^ 2 - 1 := by
      have : p.mt / 173.2 < p'.mt / 173.2 := div_lt_div_of_pos_right hh (by norm_num)
      have h1 : 0 < p.mt / 173.2 := by positivity
      nlinarith
    have hA : 0 ≤ p.alphas / 0.1184 - 1 := by
      rw [sub_nonneg, le_div_iff₀ (by norm_num)]; linarith
    simp only [gammaSM, zobs, hZ, ha, hd, hmh]
    generalize Real.log (p.mh / 125.7) = L at *
    generalize (p.mt / 173.2) ^ 2 - 1 = T at *
    generalize (p'.mt / 173.2) ^ 2 - 1 = T' at *
    generalize p.alphas / 0.1184 - 1 = A at *
    generalize p.mZ / 91.1876 - 1 = Z
    have hAT : 0 ≤ A * (T' - T) := mul_nonneg hA (by linarith)
    cases f <;> simp [rowOf, cdict] at hb ⊢ <;> nlinarith

/-! ### Sums and ratios -/

theorem pairSum2 (g : Fm → Fm → ℝ) (x y : Fm) : pairSum g [x, y] = g x x + g x y + g y x + g y y := by
  simp [pairSum]; ring

theorem pairSum3 (g : Fm → Fm → ℝ) (x y z : Fm) : pairSum g [x, y, z] =
    g x x + g y y + g z z + (g x y + g y x + g x z + g z x + g y z + g z y) := by
  simp [pairSum]; ring

/-- **C98: the total width** is the sum of the partial widths into quarks and neutrinos (all flavour combinations) and
flavour-conserving charged leptons; `Gamma(Z->nunu)` is the invisible width per generation. -/
theorem C98_total_width_partial (p : Par) (C : WC) :
    gammaHad p C = (gammaZ p C u u + gammaZ p C c c + gammaZ p C d d + gammaZ p C s s + gammaZ p C b b)
      + (gammaZ p C u c + gammaZ p C c u + gammaZ p C d s + gammaZ p C s d + gammaZ p C d b + gammaZ p C b d
        + gammaZ p C s b + gammaZ p C b s) ∧
    3 * gammaNu p C = (gammaZ p C nue nue + gammaZ p C numu numu + gammaZ p C nutau nutau)
      + (gammaZ p C nue numu + gammaZ p C numu nue + gammaZ p C nue nutau + gammaZ p C nutau nue
        + gammaZ p C numu nutau + gammaZ p C nutau numu) ∧
    gammaTot p C = gammaHad p C + (gammaZ p C e e + gammaZ p C mu mu + gammaZ p C tau tau) + 3 * gammaNu p C := by
  refine ⟨?_, ?_, ?_⟩
  · unfold gammaHad; rw [pairSum2, pairSum3]; ring
  · unfold gammaNu; rw [pairSum3]; ring
  · simp only [gammaTot, gammaL, List.map_cons, List.map_nil, List.sum_cons, List.sum_nil]; ring

/-- **C98 fails: the total width omits lepton-flavour violating decays.** It does not depend on the operators that produce
them, so that the branching ratios computed with it sum to more than one. -/
theorem C98_total_width_omits_lfv (p : Par) (hG : 0 < p.GF) (hm : 0 < p.mZ) :
    ∃ C : WC, (∀ k, k ≠ "phie_12" → C k = 0) ∧ gammaTot p C = gammaTot p noNP ∧
      0 < gammaZ p C e mu ∧ 0 < gammaZ p C mu e := by
  refine ⟨fun k => if k = "phie_12" then 1 else 0, fun k hk => by simp [hk], ?_, ?_⟩
  · have kl : ∀ op ∈ ["phil1", "phil3", "phiu", "phid", "phiq1", "phiq3"], ∀ i ∈ [1, 2, 3], ∀ j ∈ [1, 2, 3],
        key op i j ≠ "phie_12" := by decide
    have ke : ∀ i ∈ [1, 2, 3], key "phie" i i ≠ "phie_12" := by decide
    simp only [List.forall_mem_cons, List.not_mem_nil, false_imp_iff, implies_true, and_true] at kl ke
    have hb : dgZb p (fun k => if k = "phie_12" then 1 else 0) = 0 := by simp [dgZb, dGF, dmZ2, muon]
    have hs : dsh2 p (fun k => if k = "phie_12" then 1 else 0) = 0 := by simp [dsh2, muon]
    have key' : ∀ f1 f2 : Fm, f1.sec = f2.sec → (f1.sec ≠ .l ∨ f1 = f2) →
        gammaZ p (fun k => if k = "phie_12" then 1 else 0) f1 f2 = gammaZ p noNP f1 f2 := by
      intro f1 f2 h h'
      have V : dgV f1 f2 p (fun k => if k = "phie_12" then 1 else 0) = 0 ∧
          dgA f1 f2 p (fun k => if k = "phie_12" then 1 else 0) = 0 := by
        revert h h'
        cases f1 <;> cases f2 <;> intro h h' <;> first
          | (exfalso; revert h; decide)
          | (exfalso; revert h'; decide)
          | simp [dgV, dgA, Fm.sec, dgVl, dgVnu, dgVu, dgVd, dgAl, dgAnu, dgAu, dgAd, shift_eq, hb, hs, Fm.gen, kl, ke]
      simp only [gammaZ, V, shifts_noNP]
    have hH : gammaHad p (fun k => if k = "phie_12" then 1 else 0) = gammaHad p noNP := by
      rw [(C98_total_width_partial p _).1, (C98_total_width_partial p _).1]
      simp only [key' u u rfl (by decide), key' c c rfl (by decide), key' d d rfl (by decide), key' s s rfl (by decide),
        key' b b rfl (by decide), key' u c rfl (by decide), key' c u rfl (by decide), key' d s rfl (by decide),
        key' s d rfl (by decide), key' d b rfl (by decide), key' b d rfl (by decide), key' s b rfl (by decide),
        key' b s rfl (by decide)]
    have hN : gammaNu p (fun k => if k = "phie_12" then 1 else 0) = gammaNu p noNP := by
      unfold gammaNu; rw [pairSum3, pairSum3]
      simp only [key' nue nue rfl (by decide), key' numu numu rfl (by decide), key' nutau nutau rfl (by decide),
        key' nue numu rfl (by decide), key' numu nue rfl (by decide), key' nue nutau rfl (by decide),
        key' nutau nue rfl (by decide), key' numu nutau rfl (by decide), key' nutau numu rfl (by decide)]
    rw [(C98_total_width_partial p _).2.2, (C98_total_width_partial p _).2.2, hH, hN]
    simp only [key' e e rfl (by decide), key' mu mu rfl (by decide), key' tau tau rfl (by decide)]
  · have hne : ∀ f1 f2 : Fm, f1.sec = f2.sec → f1 ≠ f2 → rightC (fun k => if k = "phie_12" then 1 else 0) f1 (min f1.gen f2.gen) (max f1.gen f2.gen) = 1 →
        0 < gammaZ p (fun k => if k = "phie_12" then 1 else 0) f1 f2 := by
      intro f1 f2 hs h hr
      obtain ⟨-, h0, -, hz⟩ := C98_fcnc p (fun k => if k = "phie_12" then 1 else 0) f1 f2 hs h hG hm
      refine lt_of_le_of_ne h0 (fun h1 => ?_)
      have := (hz.mp h1.symm).2
      rw [hr] at this; norm_num at this
    refine ⟨hne e mu rfl (by decide) ?_, hne mu e rfl (by decide) ?_⟩ <;>
    · show (if key "phie" 1 2 = "phie_12" then (1 : ℂ) else 0) = 1
      rw [if_pos (by decide)]

/-- **C98: ratios of widths.** `R_uc` is the average of `R_u` and `R_c`; the five `R_q` sum to one minus the flavour-changing
fraction; `1/R_l` is the average of `1/R_e`, `1/R_mu` and `1/R_tau`. -/
theorem C98_ratios (p : Par) (C : WC) (hH : gammaHad p C ≠ 0) :
    rq1q2 u c p C = (rq u p C + rq c p C) / 2 ∧
    rq u p C + rq c p C + rq d p C + rq s p C + rq b p C =
      1 - (gammaZ p C u c + gammaZ p C c u + gammaZ p C d s + gammaZ p C s d + gammaZ p C d b + gammaZ p C b d
        + gammaZ p C s b + gammaZ p C b s) / gammaHad p C ∧
    (rl p C)⁻¹ = ((rlep e p C)⁻¹ + (rlep mu p C)⁻¹ + (rlep tau p C)⁻¹) / 3 := by
  refine ⟨?_, ?_, ?_⟩
  · unfold rq1q2 rq; field_simp
  · have h := (C98_total_width_partial p C).1
    unfold rq
    field_simp
    linarith
  · simp only [rl, rlep, gammaL, inv_div, List.map_cons, List.map_nil, List.sum_cons, List.sum_nil]
    ring

/-- **C98: sum rule in the absence of quark FCNCs.** -/
theorem C98_rq_sum_le_one (p : Par) (C : WC) (hG : 0 < p.GF) (hm : 0 < p.mZ) (hH : 0 < gammaHad p C) :
    rq u p C + rq c p C + rq d p C + rq s p C + rq b p C ≤ 1 := by
  rw [(C98_ratios p C hH.ne').2.1]
  have n : ∀ f1 f2 : Fm, f1.sec = f2.sec → f1 ≠ f2 → 0 ≤ gammaZ p C f1 f2 :=
    fun f1 f2 hs h => (C98_fcnc p C f1 f2 hs h hG hm).2.1
  have h1 := n u c rfl (by decide)
  have h2 := n c u rfl (by decide)
  have h3 := n d s rfl (by decide)
  have h4 := n s d rfl (by decide)
  have h5 := n d b rfl (by decide)
  have h6 := n b d rfl (by decide)
  have h7 := n s b rfl (by decide)
  have h8 := n b s rfl (by decide)
  exact sub_le_self _ (div_nonneg (add_nonneg (add_nonneg (add_nonneg (add_nonneg (add_nonneg (add_nonneg (add_nonneg h1 h2) h3)
    h4) h5) h6) h7) h8) hH.le)

/-- **C98: the hadronic peak cross-section** is `12π/m_Z² · Γ_e Γ_had/Γ_Z²`, and does not exceed its unitarity bound `3π/m_Z²`
if the partial widths are not negative. -/
theorem C98_sigma_had (p : Par) (C : WC) (hm : p.mZ ≠ 0) (hT : gammaTot p C ≠ 0) (he : 0 ≤ gammaZ p C e e)
    (hh : 0 ≤ gammaHad p C) (hr : 0 ≤ gammaZ p C mu mu + gammaZ p C tau tau + 3 * gammaNu p C) :
    sigmaHad p C = 12 * Real.pi / p.mZ ^ 2 * ((gammaZ p C e e / gammaTot p C) * (gammaHad p C / gammaTot p C)) ∧
    0 ≤ sigmaHad p C ∧ sigmaHad p C ≤ 3 * Real.pi / p.mZ ^ 2 := by
  have h1 : sigmaHad p C = 12 * Real.pi / p.mZ ^ 2 * ((gammaZ p C e e / gammaTot p C) * (gammaHad p C / gammaTot p C)) := by
    unfold sigmaHad; field_simp
  have ht : gammaZ p C e e + gammaHad p C ≤ gammaTot p C := by rw [(C98_total_width_partial p C).2.2]; linarith
  have htp : 0 < gammaTot p C := lt_of_le_of_ne (by linarith) (Ne.symm hT)
  refine ⟨h1, ?_, ?_⟩
  · rw [h1]
    have := Real.pi_pos
    positivity
  · rw [h1]
    have hx : gammaZ p C e e / gammaTot p C * (gammaHad p C / gammaTot p C) ≤ 1 / 4 := by
      rw [div_mul_div_comm, div_le_iff₀ (by positivity)]
      nlinarith [sq_nonneg (gammaZ p C e e - gammaHad p C)]
    calc 12 * Real.pi / p.mZ ^ 2 * (gammaZ p C e e / gammaTot p C * (gammaHad p C / gammaTot p C))
        ≤ 12 * Real.pi / p.mZ ^ 2 * (1 / 4) := by
          apply mul_le_mul_of_nonneg_left hx
          have := Real.pi_pos
          positivity
      _ = 3 * Real.pi / p.mZ ^ 2 := by ring

/-! ### Asymmetries -/

/-- **C98: the asymmetry parameter** lies between -1 and 1; for real couplings it is the left-right asymmetry
`(g_L² - g_R²)/(g_L² + g_R²)` of the chiral couplings `g_V ± g_A`. -/
theorem C98_asymmetry (gV gA : ℂ) :
    |af gV gA| ≤ 1 ∧ (∀ x y : ℝ, y ≠ 0 → af x y = ((x + y) ^ 2 - (x - y) ^ 2) / ((x + y) ^ 2 + (x - y) ^ 2)) ∧
    (∀ x y : ℝ, af y x = af x y) ∧ (∀ x y : ℝ, af (-x) y = -af x y) := by
  refine ⟨?_, ?_, ?_, ?_⟩
  · simp only [af]
    generalize (gV / gA).re = r
    have h : 0 < 1 + r ^ 2 := by positivity
    rw [abs_le]
    constructor
    · rw [le_div_iff₀ h]; nlinarith [sq_nonneg (1 + r)]
    · rw [div_le_iff₀ h]; nlinarith [sq_nonneg (1 - r)]
  · intro x y hy
    simp only [af]
    rw [← Complex.ofReal_div, Complex.ofReal_re]
    have h2 : 0 < y ^ 2 := by positivity
    have hd : (x + y) ^ 2 + (x - y) ^ 2 ≠ 0 := by nlinarith [sq_nonneg x]
    have hd' : 1 + (x / y) ^ 2 ≠ 0 := by positivity
    rw [div_eq_div_iff hd' hd]
    field_simp
    ring
  · intro x y
    simp only [af]
    rw [← Complex.ofReal_div, Complex.ofReal_re, ← Complex.ofReal_div, Complex.ofReal_re]
    by_cases hx : x = 0
    · simp [hx]
    by_cases hy : y = 0
    · simp [hy]
    have hd' : 1 + (x / y) ^ 2 ≠ 0 := by positivity
    have hd : 1 + (y / x) ^ 2 ≠ 0 := by positivity
    rw [div_eq_div_iff hd hd']
    field_simp
    ring
  · intro x y
    simp only [af]
    rw [neg_div, Complex.neg_re]
    ring

/-- **C98: forward-backward asymmetries.** `AFB(Z->ff) = 3/4 A_e A_f`, between -3/4 and 3/4, and not negative for electrons. In
the SM the charged leptons have the same asymmetry, as have `u` and `c`, and `d` and `s`; and lepton universality survives
operators that do not distinguish the leptons. -/
theorem C98_afb (p : Par) (C : WC) (f : Fm) :
    afbObs p C f = 3 / 4 * aObs p C e * aObs p C f ∧ |afbObs p C f| ≤ 3 / 4 ∧ 0 ≤ afbObs p C e ∧
    aObs p noNP e = aObs p noNP mu ∧ aObs p noNP mu = aObs p noNP tau ∧ aObs p noNP u = aObs p noNP c ∧
    aObs p noNP d = aObs p noNP s ∧
    (C "phie_11" = C "phie_33" → C "phie_22" = C "phie_33" → C "phil1_11" = C "phil1_33" → C "phil1_22" = C "phil1_33" →
      C "phil3_11" = C "phil3_33" → C "phil3_22" = C "phil3_33" →
      aObs p C e = aObs p C mu ∧ aObs p C mu = aObs p C tau) := by
  have h0 : afbObs p C f = 3 / 4 * aObs p C e * aObs p C f := rfl
  have r : ∀ g, |aObs p C g| ≤ 1 := fun g => (C98_asymmetry _ _).1
  refine ⟨h0, ?_, ?_, ?_, ?_, ?_, ?_, ?_⟩
  · rw [h0, abs_mul, abs_mul, abs_of_pos (by norm_num : (0 : ℝ) < 3 / 4)]
    have h1 := r e
    have h2 := r f
    have := abs_nonneg (aObs p C e)
    have := abs_nonneg (aObs p C f)
    nlinarith
  · show 0 ≤ 3 / 4 * aObs p C e * aObs p C e
    nlinarith [sq_nonneg (aObs p C e)]
  · simp [aObs, gVA, shifts_noNP, gVSM, gASM, Fm.q, Fm.t3, Fm.sec]
  · simp [aObs, gVA, shifts_noNP, gVSM, gASM, Fm.q, Fm.t3, Fm.sec]
  · simp [aObs, gVA, shifts_noNP, gVSM, gASM, Fm.q, Fm.t3, Fm.sec]
  · simp [aObs, gVA, shifts_noNP, gVSM, gASM, Fm.q, Fm.t3, Fm.sec]
  · intro a1 a2 b1 b2 c1 c2
    have V : ∀ g : Fm, g = e ∨ g = mu ∨ g = tau → dgV g g p C = dgV tau tau p C ∧ dgA g g p C = dgA tau tau p C := by
      have k : key "phie" 1 1 = "phie_11" ∧ key "phie" 2 2 = "phie_22" ∧ key "phie" 3 3 = "phie_33" ∧
        key "phil1" 1 1 = "phil1_11" ∧ key "phil1" 2 2 = "phil1_22" ∧ key "phil1" 3 3 = "phil1_33" ∧
        key "phil3" 1 1 = "phil3_11" ∧ key "phil3" 2 2 = "phil3_22" ∧ key "phil3" 3 3 = "phil3_33" := by decide
      rintro g (rfl | rfl | rfl) <;>
      simp [dgV, dgA, Fm.sec, dgVl, dgAl, shift_eq, Fm.gen, k, a1, a2, b1, b2, c1, c2, gVSM, gASM, Fm.q, Fm.t3]
    constructor
    · simp only [aObs, gVA, (V mu (by simp)).1, (V mu (by simp)).2, (V e (by simp)).1, (V e (by simp)).2]
      simp [gVSM, gASM, Fm.q, Fm.t3, Fm.sec]
    · simp only [aObs, gVA, (V mu (by simp)).1, (V mu (by simp)).2]
      simp [gVSM, gASM, Fm.q, Fm.t3, Fm.sec]

/-- **C98: the SM asymmetry as a function of the weak mixing angle**: `A_f = 2x/(1+x²)` with `x = 1 - 4|Q_f| s²_eff`, and
`A_f > 0` if `s²_eff < 1/(4|Q_f|)`. -/
theorem C98_asymmetry_sm (p : Par) (f : Fm) :
    aObs p noNP f = 2 * (1 - 4 * |f.q| * (if f = b then p.s2w * 1.0065 else p.s2w * 1.0010)) /
      (1 + (1 - 4 * |f.q| * (if f = b then p.s2w * 1.0065 else p.s2w * 1.0010)) ^ 2) ∧
    (4 * |f.q| * (if f = b then p.s2w * 1.0065 else p.s2w * 1.0010) < 1 → 0 < aObs p noNP f) := by
  have hr : ((gVA p noNP f).1 / (gVA p noNP f).2).re = 1 - 4 * |f.q| * (if f = b then p.s2w * 1.0065 else p.s2w * 1.0010) := by
    simp only [gVA, shifts_noNP, add_zero]
    rw [← Complex.ofReal_div, Complex.ofReal_re]
    have hq : |f.q| = 2 * f.t3 * f.q := by
      cases f <;> simp [Fm.q, Fm.t3, Fm.sec, abs_of_pos, abs_div] <;> norm_num
    have ht : f.t3 * f.t3 = 1 / 4 := by cases f <;> simp [Fm.t3, Fm.sec] <;> norm_num
    have ht0 : f.t3 ≠ 0 := by intro h; rw [h] at ht; norm_num at ht
    rw [hq, gVSM, gASM]
    generalize (if f = b then p.s2w * 1.0065 else p.s2w * 1.0010) = x
    rw [div_eq_iff (by positivity)]
    linear_combination (4 * f.q * x) * ht
  have h : aObs p noNP f = 2 * (1 - 4 * |f.q| * (if f = b then p.s2w * 1.0065 else p.s2w * 1.0010)) /
      (1 + (1 - 4 * |f.q| * (if f = b then p.s2w * 1.0065 else p.s2w * 1.0010)) ^ 2) := by
    simp only [aObs, af, hr]
  refine ⟨h, fun hx => ?_⟩
  rw [h]
  apply div_pos (by linarith) (by positivity)

/-- Reference inputs of the parametrisation, with vanishing nuisance parameters; used for
/repo/flavio/physics/zdecays/gammazsm.py:57-61. -/
noncomputable def pRef : Par :=
  { GF := 1.1663787e-5, mZ := 91.1876, alphaE := 1 / 128, s2w := 0.23121, mh := 125.7, mt := 173.2, alphas := 0.1184,
    tauZ := 0.4, delta := fun _ => 0 }

/-- **C98: the SM total width** at the reference inputs, without nuisance parameters, is 2.494239 GeV: the tabulated partial
widths sum to the tabulated total width 2494.24 MeV within rounding. -/
theorem C98_sm_total (p : Par) (h1 : p.mh = 125.7) (h2 : p.mt = 173.2) (h3 : p.alphas = 0.1184) (h4 : p.mZ = 91.1876)
    (hd : ∀ k, p.delta k = 0) : gammaTot p noNP = 2.494239 ∧ gammaHad p noNP = 1.74106 ∧ gammaNu p noNP = 0.167157 := by
  obtain ⟨e1, e2, e3, e4, hh⟩ := C98_sm_widths p
  obtain ⟨a1, a2, a3, a4, a5, a6, a7⟩ := hh h1 h2 h3 h4
  simp only [hd, add_zero] at a1 a2 a3 a4 a5 a6 a7
  have z : ∀ f1 f2, f1 ≠ f2 → gammaZ p noNP f1 f2 = 0 := by
    intro f1 f2 h
    simp [gammaZ, h, gammaNP, shifts_noNP]
  have w : ∀ f, gammaZ p noNP f f = gammaSM p f := fun f => (C98_width_flavour_diagonal p noNP f).2
  obtain ⟨b1, b2, b3⟩ := C98_total_width_partial p noNP
  simp only [z u c (by decide), z c u (by decide), z d s (by decide), z s d (by decide), z d b (by decide), z b d (by decide),
    z s b (by decide), z b s (by decide), z nue numu (by decide), z numu nue (by decide), z nue nutau (by decide),
    z nutau nue (by decide), z numu nutau (by decide), z nutau numu (by decide), w, ← e1, ← e2, ← e4, ← e3, a1, a2, a3, a4, a5,
    a6, a7] at b1 b2 b3
  have c2 : gammaNu p noNP = 0.167157 := by linarith
  have c1 : gammaHad p noNP = 1.74106 := by rw [b1]; norm_num
  refine ⟨?_, c1, c2⟩
  rw [b3, c1, c2]; norm_num

/-- The hypotheses of the theorems above are met at the reference point, and the flavour-changing case is not void. -/
example : (4 * Real.pi * pRef.alphaE / (Real.sqrt 2 * pRef.GF * pRef.mZ ^ 2) ≤ 1) ∧ 0 < gammaHad pRef noNP ∧
    gammaTot pRef noNP ≠ 0 ∧ 0 ≤ gammaZ pRef noNP e e ∧
    0 ≤ gammaZ pRef noNP mu mu + gammaZ pRef noNP tau tau + 3 * gammaNu pRef noNP ∧
    leftC (fun k => if k = "phil1_12" then 1 else 0) e 1 2 = 1 ∧ (0.1184 : ℝ) ≤ pRef.alphas ∧
    4 * |e.q| * (pRef.s2w * 1.0010) < 1 := by
  have hT := C98_sm_total pRef rfl rfl rfl rfl (fun _ => rfl)
  obtain ⟨e1, e2, e3, e4, hh⟩ := C98_sm_widths pRef
  obtain ⟨a1, a2, a3, a4, a5, a6, a7⟩ := hh rfl rfl rfl rfl
  have w : ∀ f, gammaZ pRef noNP f f = gammaSM pRef f := fun f => (C98_width_flavour_diagonal pRef noNP f).2
  refine ⟨?_, ?_, ?_, ?_, ?_, ?_, ?_, ?_⟩
  · have hs : (1.4 : ℝ) ≤ Real.sqrt 2 := Real.le_sqrt_of_sq_le (by norm_num)
    have hpi := Real.pi_lt_d2
    rw [div_le_one (by simp only [pRef]; positivity)]
    simp only [pRef]
    nlinarith
  · rw [hT.2.1]; norm_num
  · rw [hT.1]; norm_num
  · rw [w, a1]; simp only [pRef]; norm_num
  · rw [w, w, ← e1, a1, a2, hT.2.2]; simp only [pRef]; norm_num
  · show (if key "phil1" 1 2 = "phil1_12" then (1 : ℂ) else 0) + (if key "phil3" 1 2 = "phil1_12" then (1 : ℂ) else 0) = 1
    rw [if_pos (by decide), if_neg (by decide), add_zero]
  · simp only [pRef]; norm_num
  · simp [Fm.q, Fm.sec, pRef]; norm_num

end Verif.Zpole
