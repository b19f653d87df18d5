import Verif.Physics.Angular.Amps
import Verif.Physics.Eft
import Verif.Physics.Higgs.Theorems
import Verif.Parameters.Theorems
import Verif.Probability.Dist
import Mathlib.Probability.Distributions.Gaussian.Real
/-!
# Theorems added after the third round of wrong programs, continued
-/
set_option linter.unusedSimpArgs false

/-! ## C35 -/
namespace Verif.Probability

/-- **C35 (density)** The function `normal_pdf` is the density of the normal distribution with mean `mu` and variance `sigma²`: its integral over the line is one, and its logarithm is `normal_logpdf`. -/
theorem C35_normal_density (mu sigma : ℝ) (h : 0 < sigma) :
    ∫ x, normalPdf x mu sigma = 1 ∧ ∀ x, Real.log (normalPdf x mu sigma) = normalLogpdf x mu sigma := by
  constructor
  · have e : ∀ x, normalPdf x mu sigma = ProbabilityTheory.gaussianPDFReal mu ⟨sigma ^ 2, sq_nonneg _⟩ x := by
      intro x
      unfold normalPdf ProbabilityTheory.gaussianPDFReal
      have s : Real.sqrt (2 * Real.pi * sigma ^ 2) = Real.sqrt (2 * Real.pi) * sigma := by
        rw [Real.sqrt_mul (by positivity), Real.sqrt_sq h.le]
      change _ = (Real.sqrt (2 * Real.pi * sigma ^ 2))⁻¹ * Real.exp (-(x - mu) ^ 2 / (2 * sigma ^ 2))
      rw [s, div_eq_mul_inv, mul_comm, div_div, mul_comm (sigma ^ 2)]
    simp only [e]
    exact ProbabilityTheory.integral_gaussianPDFReal_eq_one mu (by intro hc; have : sigma ^ 2 = 0 := congrArg NNReal.toReal hc; exact h.ne' (pow_eq_zero_iff (by norm_num) |>.1 this))
  · intro x
    unfold normalPdf normalLogpdf
    rw [Real.log_div (Real.exp_ne_zero _) (by positivity), Real.log_exp]

end Verif.Probability

/-! ## C81 -/
namespace Verif.Angular
open Verif.Common Complex

/-- **C81 (tensor amplitudes)** The transverse tensor amplitudes in terms of the momentum `p` of the vector meson in the rest frame of the `B`: `T1` comes with `±2 m_B p`, `T2` with `m_B²-m_V²`; the chirality-even and -odd
combinations of coefficients are exchanged between the two pairs. -/
theorem C81_tensor_amplitudes (q2 mB mV mqh mql ml1 ml2 p : ℝ) (ff : FFV) (wc : Wc) (hB : 0 < mB) (hp : 0 ≤ p)
    (hE : p ^ 2 = ((mB ^ 2 + mV ^ 2 - q2) / (2 * mB)) ^ 2 - mV ^ 2) :
    let H := helV1 q2 mB mV mqh mql ml1 ml2 ff wc
    let P := ((2 * mB * p * ff.T1 : ℝ) : ℂ)
    let Q := (((mB ^ 2 - mV ^ 2) * ff.T2 : ℝ) : ℂ)
    Real.sqrt 2 * Real.sqrt q2 * H.plT = (if q2 ≤ 0 then 0 else (wc.t - wc.tp) * P - (wc.t + wc.tp) * Q)
    ∧ Real.sqrt 2 * Real.sqrt q2 * H.miT = (if q2 ≤ 0 then 0 else -(wc.t - wc.tp) * P - (wc.t + wc.tp) * Q)
    ∧ 2 * Real.sqrt q2 * H.plTt = (if q2 ≤ 0 then 0 else (wc.t + wc.tp) * P - (wc.t - wc.tp) * Q)
    ∧ 2 * Real.sqrt q2 * H.miTt = (if q2 ≤ 0 then 0 else -(wc.t + wc.tp) * P - (wc.t - wc.tp) * Q) := by
  have hk : kallen (mB ^ 2) (mV ^ 2) q2 = (2 * mB * p) ^ 2 := by
    have : (2 * mB * p) ^ 2 = 4 * mB ^ 2 * (((mB ^ 2 + mV ^ 2 - q2) / (2 * mB)) ^ 2 - mV ^ 2) := by rw [← hE]; ring
    rw [this]; unfold kallen; field_simp; ring
  have hs : Real.sqrt (lambdaK (mB ^ 2) (mV ^ 2) q2) = 2 * mB * p := by
    unfold lambdaK
    rw [if_neg (by rw [hk]; exact not_lt.2 (sq_nonneg _)), hk, Real.sqrt_sq (by positivity)]
  have s2 : ((Real.sqrt 2 : ℝ) : ℂ) ≠ 0 := by
    rw [Ne, Complex.ofReal_eq_zero]; positivity
  simp only [helV1, tenAmp, hs]
  split_ifs with hq
  · rw [Real.sqrt_eq_zero_of_nonpos hq]; simp
  · have sq : ((Real.sqrt q2 : ℝ) : ℂ) ≠ 0 := by
      rw [Ne, Complex.ofReal_eq_zero]; push Not at hq; positivity
    push_cast
    refine ⟨?_, ?_, ?_, ?_⟩ <;> (field_simp; try ring)

/-- The hypotheses are met above threshold. -/
example : ∃ q2 mB mV p : ℝ, 0 < mB ∧ 0 < p ∧ 0 < q2 ∧ p ^ 2 = ((mB ^ 2 + mV ^ 2 - q2) / (2 * mB)) ^ 2 - mV ^ 2 :=
  ⟨1, 4, 0, 15 / 8, by norm_num⟩

end Verif.Angular

/-! ## C100 -/
namespace Verif.Parameters

/-- The numbering scheme of the Particle Data Group for the particles with quark content: the digits of the quarks in the order of the scheme, `2J+1` last, and in front the radial and orbital excitation.
`(name, excitation, quark digits, 2J+1)`; the two neutral kaons `KL`, `KS` and the `f0` are special numbers of the scheme.
(Specification.) -/
def pdgScheme : List (String × Nat × Nat × Nat) :=
  [("pi0", 0, 11, 1), ("pi+", 0, 21, 1), ("eta", 0, 22, 1), ("rho0", 0, 11, 3), ("rho+", 0, 21, 3), ("omega", 0, 22, 3), ("phi", 0, 33, 3), ("K0", 0, 31, 1), ("K+", 0, 32, 1), ("K*0", 0, 31, 3), ("K*+", 0, 32, 3),
   ("D+", 0, 41, 1), ("D0", 0, 42, 1), ("D*+", 0, 41, 3), ("D*0", 0, 42, 3), ("Ds", 0, 43, 1), ("Ds*", 0, 43, 3), ("eta_c(1S)", 0, 44, 1), ("J/psi", 0, 44, 3), ("psi(2S)", 10, 44, 3), ("chi_c0(1P)", 1, 44, 1),
   ("B0", 0, 51, 1), ("B+", 0, 52, 1), ("B*0", 0, 51, 3), ("B*+", 0, 52, 3), ("Bs", 0, 53, 1), ("Bs*", 0, 53, 3), ("Bc", 0, 54, 1), ("Upsilon(1S)", 0, 55, 3), ("Upsilon(2S)", 10, 55, 3), ("Upsilon(3S)", 20, 55, 3),
   ("chi_b0(1P)", 1, 55, 1), ("chi_b0(2P)", 11, 55, 1), ("n", 0, 211, 2), ("p", 0, 221, 2), ("Lambda", 0, 312, 2), ("Lambda(1520)", 0, 312, 4), ("Lambdac", 0, 412, 2), ("Lambdab", 0, 512, 2)]

/-- **C100 (numbers)** The code used for a hadron is the number of the scheme: every hadron of the list has the number formed from its quark content, spin and excitation, quarks, leptons and bosons their conventional numbers,
and there are no others. -/
theorem C100_pdg_scheme :
    (∀ e ∈ pdgScheme, (e.1, 10000 * e.2.1 + 10 * e.2.2.1 + e.2.2.2) ∈ pdgTable)
    ∧ (∀ e ∈ [("u", 2), ("t", 6), ("e", 11), ("mu", 13), ("tau", 15), ("Z", 23), ("W", 24), ("h", 25), ("KL", 130), ("KS", 310), ("f0", 9010221)], e ∈ pdgTable)
    ∧ pdgTable.length = pdgScheme.length + 11 := by
  refine ⟨by decide +kernel, by decide +kernel, by decide +kernel⟩

end Verif.Parameters

/-! ## C108 -/
namespace Verif.Higgs

/-- **C108 (names)** The signal strengths are the pairs of one of six production and one of nine decay channels, under the names `mu_<production>(h-><decay>)`, and the decay with which each name is computed is the decay of the name. -/
theorem C108_names :
    prodModes = [("ggF", "gg"), ("hw", "Wh"), ("hz", "Zh"), ("hv", "Vh"), ("tth", "tth"), ("vv_h", "VBF")]
    ∧ registered.length = 54
    ∧ ("mu_gg(h->bb)", "ggF", "h_bb") ∈ registered ∧ ("mu_tth(h->gammagamma)", "tth", "h_gaga") ∈ registered ∧ ("mu_VBF(h->tautau)", "vv_h", "h_tautau") ∈ registered
    ∧ ("mu_Wh(h->WW)", "hw", "h_ww") ∈ registered ∧ ("mu_Zh(h->ZZ)", "hz", "h_zz") ∈ registered ∧ ("mu_Vh(h->cc)", "hv", "h_cc") ∈ registered := by
  refine ⟨rfl, by decide +kernel, by decide +kernel, by decide +kernel, by decide +kernel, by decide +kernel, by decide +kernel, by decide +kernel⟩

end Verif.Higgs

/-! ## C64 -/
namespace Verif.Eft
open Verif.Py

/-- **C64 (flavours)** The number of active flavours asked for replaces the theory: five, four and three are the weak effective theories `WET`, `WET-4`, `WET-3`; any other number is an error, whatever the coefficients. -/
theorem C64_flavours (env : Env) (o : WilsonCoefficients) (sector : String) (scale : ℝ) (eft basis : String) :
    getWcxf env o sector scale eft basis (some 5) = getWcxf env o sector scale "WET" basis none
    ∧ getWcxf env o sector scale eft basis (some 4) = getWcxf env o sector scale "WET-4" basis none
    ∧ getWcxf env o sector scale eft basis (some 3) = getWcxf env o sector scale "WET-3" basis none
    ∧ ∀ n : Int, n ≠ 3 → n ≠ 4 → n ≠ 5 → getWcxf env o sector scale eft basis (some n) = .error .valueError := by
  refine ⟨rfl, rfl, rfl, fun n h3 h4 h5 => ?_⟩
  unfold getWcxf
  have : chooseEft eft (some n) = .error .valueError := by
    unfold chooseEft; split <;> simp_all
  rw [this]; rfl

end Verif.Eft
