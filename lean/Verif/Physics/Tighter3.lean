import Verif.Physics.L1520.FormFactors
import Verif.Physics.Beta.Theorems3
import Verif.Physics.Angular.Nunu
import Verif.Physics.Semilep.K
import Verif.Physics.Mixing.AmplitudeTheorems
import Verif.Physics.Zdecays.Universal
import Verif.Physics.Lambdab.Theorems2
import Verif.Physics.FormFactors.HqetTheorems
/-!
# Further theorems about earlier models (C84, C86, C87, C92, C98, C102, C105, C106, C107, C109)

Theorems that were added because an edited model passed the earlier ones: they give the values in terms of the inputs.
-/
set_option linter.unusedVariables false
set_option linter.unusedSimpArgs false

/-! ## C84 -/
namespace Verif.Angular
open MeasureTheory Set

/-- **C84 (ratios of bins)** With an exact integrator a binned ratio is the ratio of the two integrals over the allowed part of the bin (0 if there is none), and a binned
ratio of two leptons is the ratio of the two binned quantities; in both cases 0 if the numerator vanishes. -/
theorem C84_ratios (nint : Nint) (hx : Exact nint) (f g : ℝ → ℝ) (ml ml' mB mV eps a b : ℝ)
    (hf : IntervalIntegrable f volume (q2lo ml a) (q2hi mB mV b)) (hg : IntervalIntegrable g volume (q2lo ml a) (q2hi mB mV b)) :
    (max (4 * ml ^ 2) a < min ((mB - mV) ^ 2) b → intRatio nint f g ml mB mV eps a b
      = (∫ q in (max (4 * ml ^ 2) a)..(min ((mB - mV) ^ 2) b), f q) / ∫ q in (max (4 * ml ^ 2) a)..(min ((mB - mV) ^ 2) b), g q) ∧
    (min ((mB - mV) ^ 2) b ≤ max (4 * ml ^ 2) a → intRatio nint f g ml mB mV eps a b = 0) ∧
    intRatioLfu nint f g ml ml' mB mV a b
      = obsInt nint f ml mB mV (5 / 10000) a b / obsInt nint g ml' mB mV (5 / 10000) a b := by
  refine ⟨fun h => ?_, fun h => ?_, ?_⟩
  · have h' : ¬ q2hi mB mV b ≤ q2lo ml a := not_le.2 h
    unfold intRatio
    rw [if_neg h', (C84_pole_error nint f _ _ eps (not_le.1 h').le hf).2.2 hx, (C84_pole_error nint g _ _ eps (not_le.1 h').le hg).2.2 hx]
    split_ifs with h0
    · have h0' : ∫ q in (max (4 * ml ^ 2) a)..(min ((mB - mV) ^ 2) b), f q = 0 := h0
      rw [h0', zero_div]
    · rfl
  · exact if_pos h
  · unfold intRatioLfu
    split_ifs with h0
    · rw [h0, zero_div]
    · rfl

end Verif.Angular

/-! ## C86, C87 -/
namespace Verif.Mixing
open Complex Verif.Py Verif.Ckm
open scoped ComplexConjugate

/-- **C86 (imaginary part)** The observable `x12Im` is the life time times twice the part of `M12` that is out of phase with `Γ12`. -/
theorem C86_x12Im (M12 G12 : ℂ) (tau : ℝ) (hM : M12 ≠ 0) (hG : G12 ≠ 0) :
    x12Im M12 G12 tau * ‖G12‖ = 2 * tau * (M12 * conj G12).im := by
  have hc : ‖M12‖ * ‖G12‖ * Real.sin (phi12 M12 G12) = (M12 * conj G12).im := by
    unfold phi12
    rw [Complex.sin_arg, norm_div]
    have n1 : ‖G12‖ ≠ 0 := norm_ne_zero_iff.2 hG
    have n2 : ‖M12‖ ≠ 0 := norm_ne_zero_iff.2 hM
    have e : (M12 / G12).im = (M12 * conj G12).im / ‖G12‖ ^ 2 := by
      rw [← Complex.normSq_eq_norm_sq, Complex.div_im]
      simp only [mul_im, conj_re, conj_im]
      ring
    rw [e]
    field_simp
  unfold x12Im x12
  linear_combination 2 * tau * hc

/-- **C87 (B mesons)** The Standard Model amplitude of `B0` and `Bs`: `G_F² m_W² m f² B η/(12 π²) (V_tb V_tq*)²` times the box function of the top quark and the factor between the two kinds of
bag parameters; `q` is the `d` and the `s` quark, respectively. -/
theorem C87_B_value (conf : String) (V : Mat) (q : Inputs) (s b : ℝ) (m : Meson) (n : String) (k : Fin 3)
    (hm : (m, n, k) ∈ [(Meson.B0, "B0", (0 : Fin 3)), (Meson.Bs, "Bs", 1)])
    (hs : s0Box (q.mtmt ^ 2 / q.par "m_W" ^ 2) (q.mtmt ^ 2 / q.par "m_W" ^ 2) (q.par "m_u" ^ 2 / q.par "m_W" ^ 2) = .ok s) (hb : bagMsbar2rgi q.alphaS m = .ok b) :
    m12 conf V q m (fun _ => 0) = .ok
      (((q.par "GF" ^ 2 * q.par "m_W" ^ 2 / (12 * Real.pi ^ 2) * q.par ("eta_tt_" ++ n) * q.par ("m_" ++ n) * q.par ("f_" ++ n) ^ 2 * q.par ("bag_" ++ n ++ "_1") * b : ℝ) : ℂ)
        * ((V 2 2 * conj (V 2 k)) ^ 2 * s)) := by
  have hnp : contributionNp q m (fun _ => 0) = 0 := by
    unfold contributionNp matrixElements; simp
  simp only [List.mem_cons, Prod.mk.injEq, List.not_mem_nil, or_false] at hm
  rcases hm with ⟨rfl, rfl, rfl⟩ | ⟨rfl, rfl, rfl⟩
  · unfold m12 m12dSM cvllD
    rw [if_neg (by decide), hb, hnp]
    have hx : xi 't' Meson.B0.quarks = .ok (fun V => V 2 2 * conj (V 2 0)) := rfl
    simp only [if_neg (show Meson.B0 ≠ .K0 by decide)]
    rw [hx]
    simp only [Bind.bind, Except.bind, ratio]
    rw [hs]
    refine congrArg Except.ok ?_
    simp only [normN, mf2, bag, Meson.name]
    push_cast
    ring
  · unfold m12 m12dSM cvllD
    rw [if_neg (by decide), hb, hnp]
    have hx : xi 't' Meson.Bs.quarks = .ok (fun V => V 2 2 * conj (V 2 1)) := rfl
    simp only [if_neg (show Meson.Bs ≠ .K0 by decide)]
    rw [hx]
    simp only [Bind.bind, Except.bind, ratio]
    rw [hs]
    refine congrArg Except.ok ?_
    simp only [normN, mf2, bag, Meson.name]
    push_cast
    ring

/-- **C87 (D meson)** The amplitudes of the `D0` are quadratic forms in the products of CKM elements with coefficients, in inverse picoseconds, given by the parameters. -/
theorem C87_D_value (conf : String) (V : Mat) (q : Inputs) (wc : String → ℂ) :
    let ls := V 0 1 * conj (V 1 1)
    let lb := V 0 2 * conj (V 1 2)
    getM12G12 conf V q .D0 (fun _ => 0) = .ok
      ((q.par "M12_D a_ss" * ls ^ 2 + q.par "M12_D a_bs" * lb * ls + q.par "M12_D a_bb" * lb ^ 2) / (1519267515435.317 : ℝ),
       (q.par "Gamma12_D a_ss" * ls ^ 2 + q.par "Gamma12_D a_bs" * lb * ls + q.par "Gamma12_D a_bb" * lb ^ 2) / (1519267515435.317 : ℝ)) := by
  intro ls lb
  have hnp : contributionNp q .D0 (fun _ => 0) = 0 := by
    unfold contributionNp matrixElements; simp
  have hb : xi 'b' ['u', 'c'] = .ok (fun V => V 0 2 * conj (V 1 2)) := rfl
  have hs : xi 's' ['u', 'c'] = .ok (fun V => V 0 1 * conj (V 1 1)) := rfl
  unfold getM12G12 m12 uSM
  rw [hb, hs, hnp]
  simp only [Bind.bind, Except.bind, if_true, zero_add, ps]
  rfl

end Verif.Mixing

/-! ## C92 -/
namespace Verif.Nunu
open Verif.Common Verif.Angular Complex ComplexConjugate MeasureTheory Set

/-- **C92 (values)** The differential branching ratios with all factors: `G_F² α² |ξ_t|²/(2π²)` times phase space, form factors and couplings, times the life time, and half of that for a `π0` or `ρ0`. -/
theorem C92_values (d : Inp) (fp : ℝ → FFP) (fv : ℝ → FFV) (c : Cpl) (q2 : ℝ) (hq : 0 < q2) (hM : d.mB + d.m ≠ 0) :
    let K := (if d.half then d.tauB / 2 else d.tauB) * (d.GF ^ 2 * d.alpha ^ 2 * ‖d.xit‖ ^ 2 / (2 * Real.pi ^ 2))
      * phaseSpace (2 ^ 9 * Real.pi ^ 3) q2 d.mB d.m 0 0
    let lam := lambdaK (d.mB ^ 2) (d.m ^ 2) q2
    dbrP d fp c q2 = K * (4 / 3 * lam * (fp q2).fp ^ 2) * sumPlus d c ∧
    dbrV d fv c q2 = K * (16 / 3) * ((16 * (d.mB * d.m) ^ 2 * (fv q2).A12 ^ 2 + q2 * (d.mB + d.m) ^ 2 * (fv q2).A1 ^ 2 / 2) * sumMinus d c
      + q2 * lam * (fv q2).V ^ 2 / (2 * (d.mB + d.m) ^ 2) * sumPlus d c) := by
  intro K lam
  obtain ⟨r1, r2, -⟩ := C92_rates d fp fv c q2 hq hM
  have hp : ‖prefactor d‖ ^ 2 = d.GF ^ 2 * d.alpha ^ 2 * ‖d.xit‖ ^ 2 / (2 * Real.pi ^ 2) := by
    have hpi := Real.pi_pos
    simp only [prefactor, norm_mul, norm_real, Real.norm_eq_abs, mul_pow, sq_abs, div_pow]
    rw [Real.sq_sqrt (by norm_num)]
    field_simp
  constructor
  · unfold dbrP
    rw [r1]
    simp only [K, lam, phiP, hp]
    by_cases h : d.half <;> simp only [h, if_true, if_false, Bool.false_eq_true] <;> ring
  · unfold dbrV
    rw [r2]
    simp only [K, lam, phi0, phiPar, phiPerp, hp]
    by_cases h : d.half <;> simp only [h, if_true, if_false, Bool.false_eq_true] <;> ring

/-- **C92 (bins)** With an exact integrator the binned branching ratio is the average over the bin, and the total one the integral over the kinematic range `0 < q² < (mB - m)²`. -/
theorem C92_bins (nint : Nint) (hx : Exact nint) (d : Inp) (f : ℝ → ℝ) (a b : ℝ) (hlt : a < b) (hab : IntervalIntegrable f volume a b)
    (h : IntervalIntegrable f volume 0 ((d.mB - d.m) ^ 2)) :
    binned nint f a b = (b - a)⁻¹ * (∫ q in a..b, f q) ∧ total nint d f = ∫ q in (0:ℝ)..((d.mB - d.m) ^ 2), f q := by
  refine ⟨?_, hx _ _ _ _ h⟩
  unfold binned
  rw [hx _ _ _ _ hab]; ring

end Verif.Nunu

/-! ## C98 -/
namespace Verif.Zpole
open Fm

/-- **C98 (colour)** New physics changes the width into each quark by three times what it would for a lepton with the same couplings. -/
theorem C98_colour (p : Par) (C : WC) (f1 f2 : Fm) (h : f1 ≠ f2) :
    gammaZ p C f1 f2 = (if f1 ∈ [u, c, d, s, b] then 3 else 1) * (Real.sqrt 2 * p.GF * p.mZ ^ 3 / (3 * Real.pi)) * (‖dgV f1 f2 p C‖ ^ 2 + ‖dgA f1 f2 p C‖ ^ 2) := by
  unfold gammaZ gammaNP
  rw [if_neg h]
  have e : f1.nc = if f1 ∈ [u, c, d, s, b] then 3 else 1 := by cases f1 <;> simp [Fm.nc, Fm.sec]
  rw [e]
  simp
  ring_nf

/-- **C98 (colour, flavour-diagonal)** The same for equal fermions. -/
theorem C98_colour_diagonal (p : Par) (C : WC) (f : Fm) :
    gammaZ p C f f - gammaSM p f = (if f ∈ [u, c, d, s, b] then 3 else 1) * (Real.sqrt 2 * p.GF * p.mZ ^ 3 / (3 * Real.pi))
      * (‖(gVSM f p : ℂ) + dgV f f p C‖ ^ 2 + ‖(gASM f : ℂ) + dgA f f p C‖ ^ 2 - gVSM f p ^ 2 - gASM f ^ 2) := by
  rw [(C98_width_flavour_diagonal p C f).1]
  have e : f.nc = if f ∈ [u, c, d, s, b] then 3 else 1 := by cases f <;> simp [Fm.nc, Fm.sec]
  rw [e]
  ring

/-- **C98 (total width)** The sum of all partial widths in the Standard Model, in GeV, as a function of the masses and the strong coupling. -/
theorem C98_sm_total_formula (p : Par) (hd : p.delta = fun _ => 0) :
    let L := Real.log (p.mh / 125.7)
    let t := (p.mt / 173.2) ^ 2 - 1
    let α := p.alphas / 0.1184 - 1
    let z := p.mZ / 91.1876 - 1
    gammaTot p noNP = (2494.239 - 1.966 * L + 19.72 * t + 58.615 * α - 4.09 * α ^ 2 + 7.97 * (α * t) + 9266 * z) * 1e-3 := by
  intro L t α z
  have hz : ∀ f1 f2 : Fm, f1.sec = f2.sec → f1 ≠ f2 → gammaZ p noNP f1 f2 = 0 := by
    intro f1 f2 hs h
    rw [C98_colour p noNP f1 f2 h, (shifts_noNP p f1 f2).1, (shifts_noNP p f1 f2).2]
    simp
  have hs : ∀ f, gammaZ p noNP f f = gammaSM p f := fun f => (C98_width_flavour_diagonal p noNP f).2
  simp only [gammaTot, gammaHad, gammaL, gammaNu, pairSum, List.flatMap_cons, List.flatMap_nil, List.map_cons, List.map_nil, List.sum_append, List.sum_cons, List.sum_nil, List.append_nil]
  simp only [hs, hz u c rfl (by decide), hz c u rfl (by decide), hz d s rfl (by decide), hz d b rfl (by decide), hz s d rfl (by decide), hz s b rfl (by decide), hz b d rfl (by decide),
    hz b s rfl (by decide), hz nue numu rfl (by decide), hz nue nutau rfl (by decide), hz numu nue rfl (by decide), hz numu nutau rfl (by decide), hz nutau nue rfl (by decide),
    hz nutau numu rfl (by decide)]
  have g : ∀ f, gammaSM p f = (cdict (rowOf f) 0 + cdict (rowOf f) 1 * L + cdict (rowOf f) 2 * t + cdict (rowOf f) 3 * α + cdict (rowOf f) 4 * α ^ 2
      + cdict (rowOf f) 5 * (α * t) + cdict (rowOf f) 7 * z) * 1e-3 := by
    intro f
    simp only [gammaSM, zobs, hd, L, t, α, z]
    have : (0.059 : ℝ) / 0.059 - 1 = 0 := by norm_num
    rw [this]
    ring
  simp only [g]
  clear_value L t α z
  simp only [rowOf, cdict]
  simp
  ring

end Verif.Zpole

/-! ## C102 -/
namespace Verif.Semilep.Kaon

/-- **C102 (values of the form factors)** The dispersive parametrisation: `f₊ = f₊(0) exp[q²/m_π² (Λ₊ + H₁ x + H₂ x²)]` with `x = q²/(m_K - m_π)²`; `f₀ = f₊(0) exp[q²/(m_K² - m_π²) (ln C - G)]`, where `G`
is the quadratic polynomial of `x` with the values `d` at 0, `D` at 1 and `(D + d)/2 + k/4` at `1/2`. -/
theorem C102_ff_values (p : FFPar) (hm : p.mKL ≠ p.mpi) (x : ℝ) :
    (ffDisp p (x * (p.mKL - p.mpi) ^ 2)).fp
      = p.fp0 * Real.exp (x * (p.mKL - p.mpi) ^ 2 / p.mpi ^ 2 * (p.Lp + (p.H1 + p.H2 * x) * x)) ∧
    (∃ a b c : ℝ, (∀ y, ffG p (y * (p.mKL - p.mpi) ^ 2) = a + b * y + c * y ^ 2) ∧ a = p.d ∧ a + b + c = p.D ∧ a + b / 2 + c / 4 = (p.D + p.d) / 2 + p.k / 4) ∧
    (∀ q2, (ffDisp p q2).f0 = p.fp0 * Real.exp (q2 / (p.mKL ^ 2 - p.mpi ^ 2) * (p.lnC - ffG p q2))) := by
  have h0 : (p.mKL - p.mpi) ^ 2 ≠ 0 := pow_ne_zero 2 (sub_ne_zero.2 hm)
  refine ⟨?_, ⟨p.d, p.D - p.d + p.k, -p.k, fun y => ?_, rfl, by ring, by ring⟩, fun q2 => rfl⟩
  · simp only [ffDisp]
    rw [mul_div_cancel_right₀ _ h0]
    congr 2; ring
  · simp only [ffG]
    rw [mul_div_cancel_right₀ _ h0]; ring

example : ∃ p : FFPar, p.mKL ≠ p.mpi := ⟨⟨0.5, 0.14, 1, 0.2, 0.025, 0.03, 0.01, 0.001, 0.001, 0.001, 1, 1⟩, by norm_num⟩

end Verif.Semilep.Kaon

/-! ## C105 -/
namespace Verif.FormFactors
open Verif.Py Asymptotics

/-- **C105 (expansion)** Up to terms of order `z^(m+1)`, `m ≤ 3`, the leading Isgur-Wise function is `1 - ρ² (w-1) + c (w-1)² + ξ₃/6 (w-1)³`, the subleading ones are the six combinations of `χ2`, `χ3`, `η`, each
a second order polynomial of `w - 1` (`χ3` without constant term), and the subsubleading ones are linear. `w - 1 = 8 z/(1-z)²`. -/
theorem C105_isgurwise_functions (p : HqPar) (m : ℕ) (hm : m ≤ 3) :
    ∃ X : ℝ → ℝ, ∃ (x2 x3 e : ℝ → ℝ), ∃ L6 : ℝ → Fin 6 → ℝ,
      let y := fun z : ℝ => 8 * z / (1 - z) ^ 2
      (∀ z, xi p z m = .ok (X z)) ∧ (fun z => (1 - p.rho2 * y z + p.c * y z ^ 2 + p.xi3 / 6 * y z ^ 3) - X z) =O[nhds 0] (fun z => z ^ (m + 1)) ∧
      (∀ w z, Lz p w z m = .ok ⟨12 * x3 z - 4 * (w - 1) * x2 z, -(4 * x3 z), 4 * x2 z, 2 * e z - 1, -1, -(2 * (e z + 1) / (w + 1))⟩) ∧
      (fun z => (p.chi2 + p.chi2p * y z + p.chi2pp / 2 * y z ^ 2) - x2 z) =O[nhds 0] (fun z => z ^ (m + 1)) ∧
      (fun z => (p.chi3p * y z + p.chi3pp / 2 * y z ^ 2) - x3 z) =O[nhds 0] (fun z => z ^ (m + 1)) ∧
      (fun z => (p.eta + p.etap * y z + p.etapp / 2 * y z ^ 2) - e z) =O[nhds 0] (fun z => z ^ (m + 1)) ∧
      (∀ z, ell p z m = .ok ⟨L6 z 0, L6 z 1, L6 z 2, L6 z 3, L6 z 4, L6 z 5⟩) ∧
      ∀ i : Fin 6, (fun z => (p.l (i + 1) + p.lp (i + 1) * y z) - L6 z i) =O[nhds 0] (fun z => z ^ (m + 1)) := by
  obtain ⟨p1, -, e1, o1⟩ := (C104_w_expansion 1 m).1 (by norm_num) hm
  obtain ⟨p2, -, e2, o2⟩ := (C104_w_expansion 2 m).1 (by norm_num) hm
  obtain ⟨p3, -, e3, o3⟩ := (C104_w_expansion 3 m).1 (by norm_num) hm
  refine ⟨fun z => 1 - p.rho2 * p1.eval z + p.c * p2.eval z + p.xi3 / 6 * p3.eval z, fun z => p.chi2 + p.chi2p * p1.eval z + p.chi2pp / 2 * p2.eval z,
    fun z => p.chi3p * p1.eval z + p.chi3pp / 2 * p2.eval z, fun z => p.eta + p.etap * p1.eval z + p.etapp / 2 * p2.eval z,
    fun z i => p.l (i + 1) + p1.eval z * p.lp (i + 1), ?_⟩
  intro y
  refine ⟨fun z => ?_, ?_, fun w z => ?_, ?_, ?_, ?_, fun z => ?_, fun i => ?_⟩
  · simp only [xi, e1, e2, e3, Bind.bind, Except.bind]; rfl
  · refine (((o1.const_mul_left (-p.rho2)).add (o2.const_mul_left p.c)).add (o3.const_mul_left (p.xi3 / 6))).congr_left fun z => ?_
    simp only [y]; ring
  · simp only [Lz, e1, e2, Bind.bind, Except.bind]
    refine congrArg Except.ok ?_
    simp only [Six.mk.injEq]
    refine ⟨by ring, by ring, trivial, trivial, trivial, by ring⟩
  · refine ((o1.const_mul_left p.chi2p).add (o2.const_mul_left (p.chi2pp / 2))).congr_left fun z => ?_
    simp only [y]; ring
  · refine ((o1.const_mul_left p.chi3p).add (o2.const_mul_left (p.chi3pp / 2))).congr_left fun z => ?_
    simp only [y]; ring
  · refine ((o1.const_mul_left p.etap).add (o2.const_mul_left (p.etapp / 2))).congr_left fun z => ?_
    simp only [y]; ring
  · simp only [ell, e1, Bind.bind, Except.bind]; rfl
  · refine (o1.const_mul_left (p.lp (i + 1))).congr_left fun z => ?_
    simp only [y]; ring

/-- **C105 (heavy quark parameters)** The expansion parameters are `Λ̄/2m_c`, `Λ̄/2m_b` with `m_b` the 1S mass with its one-loop correction, `m_b - m_c = 3.4` and `Λ̄ = 5.313 - m_b - 0.3/(2 m_b^1S)`;
numerically `ε_c ≈ 0.181`, `ε_b ≈ 0.0523`, `m_c/m_b ≈ 0.289`. -/
theorem C105_parameters :
    ∃ mb mc lam : ℝ, mb = 4.71 * (1 + 2 * 0.26 ^ 2 / 9) ∧ mb - mc = 3.4 ∧ lam + mb + 0.15 / 4.71 = 5.313 ∧
      hqEps.epsc * (2 * mc) = lam ∧ hqEps.epsb * (2 * mb) = lam ∧ hqEps.zc * mb = mc ∧ hqEps.ash * Real.pi = 0.26 ∧
      |hqEps.epsc - 0.181| < 0.001 ∧ |hqEps.epsb - 0.0523| < 0.0002 ∧ |hqEps.zc - 0.289| < 0.001 := by
  have hpi := Real.pi_pos.ne'
  refine ⟨4.71 * (1 + 2 * 0.26 ^ 2 / 9), 4.71 * (1 + 2 * 0.26 ^ 2 / 9) - 3.4, 5.313 - 4.71 * (1 + 2 * 0.26 ^ 2 / 9) - 0.15 / 4.71, rfl, by ring, by ring, ?_, ?_, ?_, ?_, ?_, ?_, ?_⟩
  · simp only [hqEps]; norm_num
  · simp only [hqEps]; norm_num
  · simp only [hqEps]; norm_num
  · simp only [hqEps]; field_simp
  · simp only [hqEps]; norm_num [abs_lt]
  · simp only [hqEps]; norm_num [abs_lt]
  · simp only [hqEps]; norm_num [abs_lt]

end Verif.FormFactors

/-! ## C106, C107 -/
namespace Verif.Lambdab
open Verif.Angular Complex

/-- **C106 (shifts)** A shift of `C7` (`C9`) by `x` changes every amplitude by what the code adds for `x`, and the polynomial shift is linear in `q²`. -/
theorem C106_shift_difference (d : Inp) (q2 : ℝ) (w : Wc) (x : ℂ) (a b : Shift) :
    let T := fun w => transAmps (helAmps q2 d.mLb d.mL (d.ff q2)) q2 d.mb w (pref d q2)
    (∀ g ∈ ([Four.perp1, Four.para1, Four.perp0, Four.para0] : List (Four → ℂ)),
      g (T { w with c7 := w.c7 + x }).L - g (T w).L = g (dC7 d q2 x).L ∧ g (T { w with c7 := w.c7 + x }).R - g (T w).R = g (dC7 d q2 x).R ∧
      g (T { w with v := w.v + x }).L - g (T w).L = g (dC9 d q2 x).L ∧ g (T { w with v := w.v + x }).R - g (T w).R = g (dC9 d q2 x).R) ∧
    (∀ s ∈ ([Shift.perp0, Shift.para0, Shift.perp1, Shift.para1] : List (Shift → ℂ)), s (shift7 a b q2) = s a + q2 * s b) := by
  intro T
  constructor
  · intro g hg
    simp only [List.mem_cons, List.not_mem_nil, or_false] at hg
    rcases hg with rfl | rfl | rfl | rfl <;> simp only [T, dC7, dC9, transAmps, four, Four.scale, wc0] <;> refine ⟨?_, ?_, ?_, ?_⟩ <;> ring
  · intro s hs
    simp only [List.mem_cons, List.not_mem_nil, or_false] at hs
    rcases hs with rfl | rfl | rfl | rfl <;> simp only [shift7] <;> ring

end Verif.Lambdab

/-! ## C107 -/
namespace Verif.L1520
open Verif.Angular Verif.Py Complex

/-- **C107 (photon pole)** If the tensor form factors are `κ` times the vector ones (the heavy-quark relation), `C7` acts on all twelve amplitudes as a shift of `C9` by `2 m_b κ C7/q²`, and `C7'` as one of `C9'`. -/
theorem C107_photon_universal (h : HA) (k q2 m : ℝ) (w : Wc) (N : ℂ) (h0 : h.t0 = -k * h.v0) (h1 : h.t1 = -k * h.v1) (h3 : h.t3 = -k * h.v3)
    (h50 : h.t50 = k * h.a0) (h51 : h.t51 = k * h.a1) (h53 : h.t53 = k * h.a3) :
    transAmps h q2 m w N = transAmps h q2 m { w with c7 := 0, c7p := 0, v := w.v + 2 * m * k / q2 * w.c7, vp := w.vp + 2 * m * k / q2 * w.c7p } N := by
  simp only [transAmps, six, h0, h1, h3, h50, h51, h53, Ta.mk.injEq, Six.mk.injEq]
  push_cast
  refine ⟨⟨?_, ?_, ?_, ?_, ?_, ?_⟩, ?_, ?_, ?_, ?_, ?_, ?_⟩ <;> ring

/-- **C107 (chiralities)** Without `C7` the left-handed amplitudes see only `C9-C10` (`C9'-C10'`), the right-handed ones only `C9+C10` (`C9'+C10'`); the vector current enters with the sum of the unprimed and primed coefficient,
the axial current with the difference. -/
theorem C107_chirality (h : HA) (q2 m : ℝ) (w : Wc) (N : ℂ) (h7 : w.c7 = 0) (h7p : w.c7p = 0) :
    let P := fun l lp : ℂ => (⟨N * Real.sqrt 2 * ((l + lp) * h.v1), -(N * Real.sqrt 2 * ((l - lp) * h.a1)), N * Real.sqrt 2 * ((l + lp) * h.v0), -(N * Real.sqrt 2 * ((l - lp) * h.a0)),
      N * Real.sqrt 2 * ((l + lp) * h.v3), -(N * Real.sqrt 2 * ((l - lp) * h.a3))⟩ : Six)
    transAmps h q2 m w N = ⟨P (w.v - w.a) (w.vp - w.ap), P (w.v + w.a) (w.vp + w.ap)⟩ := by
  simp only [transAmps, six, h7, h7p, Ta.mk.injEq, Six.mk.injEq]
  refine ⟨⟨?_, ?_, ?_, ?_, ?_, ?_⟩, ?_, ?_, ?_, ?_, ?_, ?_⟩ <;> ring

/-- **C107 (lattice)** The lattice form factors are linear in the recoil `w`: the tabulated value at `w = 1`, the tabulated slope everywhere. -/
theorem C107_linear (x : FA) (q2 mLb mL w : ℝ) (h : 0 < mL) (hb : 0 < mLb) (hw : q2 = mLb ^ 2 + mL ^ 2 - 2 * mLb * mL * w) :
    lin x q2 mLb mL = x.F + x.A * (w - 1) ∧ lin x ((mLb - mL) ^ 2) mLb mL = x.F := by
  subst hw
  unfold lin
  have e : (mLb * mLb + mL * mL - (mLb ^ 2 + mL ^ 2 - 2 * mLb * mL * w)) / (2 * mLb * mL) = w := by field_simp; ring
  have e2 : (mLb * mLb + mL * mL - (mLb - mL) ^ 2) / (2 * mLb * mL) = 1 := by field_simp; ring
  rw [e, e2]; simp

/-- **C107 (quark model)** The form factors of the quark model are an even polynomial of fourth degree in the momentum times the overlap of two Gaussians: at zero momentum the constant, and the logarithmic derivative of the
Gaussian is `-3 m_q² p/(m α)²`. -/
theorem C107_gauss (a0 a2 a4 p mq m al : ℝ) :
    gauss a0 a2 a4 p mq m al = (a0 + a2 * p ^ 2 + a4 * p ^ 4) * gauss 1 0 0 p mq m al ∧ gauss 1 0 0 0 mq m al = 1 ∧ gauss 1 0 0 (-p) mq m al = gauss 1 0 0 p mq m al
    ∧ HasDerivAt (fun p => gauss 1 0 0 p mq m al) (-3 * mq ^ 2 * p / (m * al) ^ 2 * gauss 1 0 0 p mq m al) p := by
  have e : ∀ p, gauss 1 0 0 p mq m al = Real.exp (-(3 / 2) * (mq / (m * al)) ^ 2 * p ^ 2) := by
    intro p; unfold gauss
    rw [show (1 + 0 * p ^ 2 + 0 * p ^ 4 : ℝ) = 1 by ring, one_mul]
    congr 1
    rw [div_eq_mul_inv, mul_inv]; ring
  refine ⟨by simp [gauss], by simp [gauss], by simp [gauss], ?_⟩
  have ef : (fun p => gauss 1 0 0 p mq m al) = fun p => Real.exp (-(3 / 2) * (mq / (m * al)) ^ 2 * p ^ 2) := funext e
  rw [ef, e]
  refine ((((hasDerivAt_id p).pow 2).const_mul (-(3 / 2) * (mq / (m * al)) ^ 2)).exp).congr_deriv ?_
  simp only [id, Pi.pow_apply]
  ring

/-- **C107 (momentum)** The momentum of the quark model is, for every `q²`, the root of the modulus of the triangle function over twice the mass: real and positive also beyond the end of the phase space. -/
theorem C107_momentum_everywhere (q2 mL mLb : ℝ) (hb : 0 < mLb) :
    momentum q2 mL mLb = Real.sqrt |((mLb - mL) ^ 2 - q2) * ((mLb + mL) ^ 2 - q2)| / (2 * mLb) := by
  have e : (1 - (mL / mLb) ^ 2) ^ 2 - 2 * (1 + (mL / mLb) ^ 2) * (q2 / mLb ^ 2) + (q2 / mLb ^ 2) ^ 2 = ((mLb - mL) ^ 2 - q2) * ((mLb + mL) ^ 2 - q2) / (mLb ^ 2) ^ 2 := by
    field_simp; ring
  have s : Real.sqrt ((mLb ^ 2) ^ 2) = mLb ^ 2 := Real.sqrt_sq (by positivity)
  unfold momentum
  simp only [e]
  split_ifs with h
  · have hp : 0 < ((mLb - mL) ^ 2 - q2) * ((mLb + mL) ^ 2 - q2) := (div_pos_iff_of_pos_right (by positivity)).1 h
    rw [abs_of_pos hp, Real.sqrt_div hp.le, s]; field_simp
  · have hp : ((mLb - mL) ^ 2 - q2) * ((mLb + mL) ^ 2 - q2) ≤ 0 := by
      by_contra hc; push Not at hc; exact h (div_pos hc (by positivity))
    rw [abs_of_nonpos hp, ← neg_div, Real.sqrt_div (by linarith), s]; field_simp

/-- The hypotheses of `C107_photon_universal` are met by amplitudes that are not zero. -/
example : ∃ (h : HA) (k : ℝ), k ≠ 0 ∧ h.v1 ≠ 0 ∧ h.a3 ≠ 0 ∧ h.t0 = -k * h.v0 ∧ h.t1 = -k * h.v1 ∧ h.t3 = -k * h.v3 ∧ h.t50 = k * h.a0 ∧ h.t51 = k * h.a1 ∧ h.t53 = k * h.a3 :=
  ⟨⟨1, 2, 3, 4, 5, 6, -1, -2, -3, 4, 5, 6⟩, 1, by norm_num⟩

end Verif.L1520

/-! ## C109 -/
namespace Verif.Beta
open Verif.Py

/-- The periodic system by periods, written down independently of the code. (Specification.) -/
def periods : List String :=
  ["H He",
   "Li Be B C N O F Ne",
   "Na Mg Al Si P S Cl Ar",
   "K Ca Sc Ti V Cr Mn Fe Co Ni Cu Zn Ga Ge As Se Br Kr",
   "Rb Sr Y Zr Nb Mo Tc Ru Rh Pd Ag Cd In Sn Sb Te I Xe",
   "Cs Ba La Ce Pr Nd Pm Sm Eu Gd Tb Dy Ho Er Tm Yb Lu Hf Ta W Re Os Ir Pt Au Hg Tl Pb Bi Po At Rn",
   "Fr Ra Ac Th Pa U Np Pu Am Cm Bk Cf Es Fm Md No Lr Rf Db Sg Bh Hs Mt Ds Rg Cn Nh Fl Mc Lv Ts Og"]

/-- **C109 (table)** The table is the neutron followed by the periods of the periodic system, whose noble gases are at the charges 2, 10, 18, 36, 54, 86 and 118. -/
theorem C109_table : String.intercalate " " table = "n " ++ String.intercalate " " periods
    ∧ [2, 10, 18, 36, 54, 86, 118].map symbol = ["He", "Ne", "Ar", "Kr", "Xe", "Rn", "Og"].map Except.ok := by
  refine ⟨by decide +kernel, by decide +kernel⟩

/-- **C109 (names)** A name without a digit or without a capital letter has no daughter: an error, as for the pattern that does not match. -/
theorem C109_daughter_errors (s : String) (h : (∀ c ∈ s.toList, c.isDigit = false) ∨ ∀ c ∈ s.toList, c.isUpper = false) : daughter s = .error .attributeError := by
  unfold daughter
  have k : ∀ (p : Char → Bool), (∀ c ∈ s.toList, p c = false) → s.toList.dropWhile (fun c => !p c) = [] := by
    intro p hp; have := List.dropWhile_append_of_pos (l₁ := s.toList) (l₂ := []) (p := fun c => !p c) (fun c hc => by simp [hp c hc]); simpa using this
  rcases h with h | h
  · simp only [k _ h]; rw [if_pos (by simp)]
  · simp only [k _ h]; rw [if_pos (by simp)]

/-- **C109 (energies)** All tabulated `Q` values are between that of carbon-10 (1.9 MeV) and that of rubidium-74 (10.4 MeV), and they grow with the charge within each of the two series `T_z = -1` and `T_z = 0`. -/
theorem C109_qec : (∀ e ∈ qEC, 1.9 < e.2 ∧ e.2 < 10.42)
    ∧ (qEC.map Prod.fst = nuclei.map Prod.fst)
    ∧ (∀ (tz : List String), tz ∈ [["10C", "14O", "22Mg", "34Ar", "38Ca"], ["26mAl", "34Cl", "38mK", "42Sc", "46V", "50Mn", "54Co", "62Ga", "74Rb"]] → (tz.filterMap fun n => qEC.lookup n).Pairwise (· < ·)) := by
  refine ⟨?_, rfl, ?_⟩
  · intro e he
    simp only [qEC, List.mem_cons, List.not_mem_nil, or_false] at he
    rcases he with rfl | rfl | rfl | rfl | rfl | rfl | rfl | rfl | rfl | rfl | rfl | rfl | rfl | rfl <;> constructor <;> norm_num
  · intro tz h
    simp only [List.mem_cons, List.not_mem_nil, or_false] at h
    rcases h with rfl | rfl
    · rw [show (["10C", "14O", "22Mg", "34Ar", "38Ca"].filterMap fun n => qEC.lookup n) = [1907.994 / 1000, 2831.543 / 1000, 4124.49 / 1000, 6061.83 / 1000, 6612.12 / 1000] from rfl]
      norm_num
    · rw [show (["26mAl", "34Cl", "38mK", "42Sc", "46V", "50Mn", "54Co", "62Ga", "74Rb"].filterMap fun n => qEC.lookup n) = [4232.72 / 1000, 5491.662 / 1000, 6044.240 / 1000, 6426.34 / 1000, 7052.45 / 1000, 7634.453 / 1000, 8244.38 / 1000, 9181.07 / 1000, 10416.8 / 1000] from rfl]
      norm_num

end Verif.Beta
