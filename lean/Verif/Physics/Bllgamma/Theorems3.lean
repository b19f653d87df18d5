import Verif.Physics.Bllgamma.Theorems2
/-!
# `B → ℓ⁺ ℓ⁻ γ`: units, coefficients, positivity and bins (C135)
-/
set_option linter.unusedVariables false
set_option linter.unusedSimpArgs false
namespace Verif.Bllgamma
open Verif.Py Verif.Running Complex Filter Topology MeasureTheory
local notation "conj" => starRingEnd ℂ

/-! ## Units -/

/-- `q'` are the parameters `q` in an energy unit smaller by the factor `u`. (Specification.) -/
structure Rescaled (u : ℝ) (q q' : Inp) (B lep : String) : Prop where
  GF : q'.par "GF" = q.par "GF" / u ^ 2
  mB : q'.par ("m_" ++ B) = u * q.par ("m_" ++ B)
  fB : q'.par ("f_" ++ B) = u * q.par ("f_" ++ B)
  tB : q'.par ("tau_" ++ B) = q.par ("tau_" ++ B) / u
  ml : q'.par ("m_" ++ lep) = u * q.par ("m_" ++ lep)
  mb : q'.mb = u * q.mb
  al : q'.alphaE = q.alphaE
  xi : q'.xiT = q.xiT
  beta : ∀ x ∈ ["B->gamma KM betav", "B->gamma KM betaa", "B->gamma KM betatv", "B->gamma KM betata"], q'.par x = q.par x / u
  delta : ∀ x ∈ ["B->gamma KM deltav", "B->gamma KM deltaa", "B->gamma KM deltatv", "B->gamma KM deltata"], q'.par x = u * q.par x
  res : ∀ V ∈ resonances B, q'.par ("m_" ++ V) = u * q.par ("m_" ++ V) ∧ q'.par ("tau_" ++ V) = q.par ("tau_" ++ V) / u ∧ q'.par ("f_" ++ V) = u * q.par ("f_" ++ V)
  a0 : ∀ x ∈ ["Bs->phi BSZ a0_T1", "B->rho BSZ a0_T1", "B->omega BSZ a0_T1"], q'.par x = q.par x

theorem pole_units {u : ℝ} (hu : 0 < u) (b d f M q2 : ℝ) : pole (b / u) (u * d) (u * f) (u * M) (u ^ 2 * q2) = pole b d f M q2 := by
  unfold pole
  have e1 : b / u * (u * f) * (u * M) = u * (b * f * M) := by field_simp
  have e2 : u * d + u * M / 2 * (1 - u ^ 2 * q2 / (u * M) ^ 2) = u * (d + M / 2 * (1 - q2 / M ^ 2)) := by
    rw [mul_pow, mul_div_mul_left _ _ (by positivity)]; ring
  rw [e1, e2]
  unfold pyDiv
  by_cases h : d + M / 2 * (1 - q2 / M ^ 2) = 0
  · rw [if_pos h, if_pos (by rw [h, mul_zero])]
  · rw [if_neg h, if_neg (mul_ne_zero hu.ne' h), mul_div_mul_left _ _ hu.ne']

theorem kmFF_units {u : ℝ} (hu : 0 < u) {q q' : Inp} {B lep : String} (h : Rescaled u q q' B lep) (q2 : ℝ) : kmFF q' B (u ^ 2 * q2) = kmFF q B q2 := by
  unfold kmFF
  simp only [h.mB, h.fB, h.beta "B->gamma KM betav" (by simp), h.beta "B->gamma KM betaa" (by simp), h.beta "B->gamma KM betatv" (by simp), h.beta "B->gamma KM betata" (by simp),
    h.delta "B->gamma KM deltav" (by simp), h.delta "B->gamma KM deltaa" (by simp), h.delta "B->gamma KM deltatv" (by simp), h.delta "B->gamma KM deltata" (by simp), pole_units hu]

theorem res_units {u : ℝ} (hu : 0 < u) {q q' : Inp} {B lep : String} (h : Rescaled u q q' B lep) (s : ℝ) : resSum q' B s = resSum q B s := by
  unfold resSum
  congr 1
  refine List.map_congr_left fun V hV => ?_
  obtain ⟨h1, h2, h3⟩ := h.res V hV
  have hg : resgV q' V = resgV q V := by
    unfold resgV; split <;> simp only [h.a0 "Bs->phi BSZ a0_T1" (by simp), h.a0 "B->rho BSZ a0_T1" (by simp), h.a0 "B->omega BSZ a0_T1" (by simp)]
  unfold resTerm
  rw [hg, h1, h2, h3, h.mB]
  have hu' : (u : ℂ) ≠ 0 := by exact_mod_cast hu.ne'
  have e1 : 2 * (emFactor V * (u * q.par ("f_" ++ V))) * resgV q V * (u * q.par ("m_" ++ B)) ^ 2 * s / (u * q.par ("m_" ++ V))
      = u ^ 2 * (2 * (emFactor V * q.par ("f_" ++ V)) * resgV q V * q.par ("m_" ++ B) ^ 2 * s / q.par ("m_" ++ V)) := by
    rw [show 2 * (emFactor V * (u * q.par ("f_" ++ V))) * resgV q V * (u * q.par ("m_" ++ B)) ^ 2 * s = u * (u ^ 2 * (2 * (emFactor V * q.par ("f_" ++ V)) * resgV q V * q.par ("m_" ++ B) ^ 2 * s)) by ring,
      mul_div_mul_left _ _ hu.ne', mul_div_assoc]
  have e2 : (((u * q.par ("m_" ++ B)) ^ 2 * s - (u * q.par ("m_" ++ V)) ^ 2 : ℝ) : ℂ) + I * ((u * q.par ("m_" ++ V) / (q.par ("tau_" ++ V) / u) : ℝ) : ℂ)
      = (u : ℂ) ^ 2 * (((q.par ("m_" ++ B) ^ 2 * s - q.par ("m_" ++ V) ^ 2 : ℝ) : ℂ) + I * ((q.par ("m_" ++ V) / q.par ("tau_" ++ V) : ℝ) : ℂ)) := by
    rw [div_div_eq_mul_div]; push_cast; ring
  simp only [e1]
  rw [e2]; push_cast
  rw [mul_div_mul_left _ _ (pow_ne_zero 2 hu')]

/-- **C135 (witness: units)** The observables are described as differential in `q²`, so in a smaller unit of energy the number must be smaller by the square of the ratio; the number in the code does not change at all: it is differential
in the dimensionless ratio `q²/m_B²` (too large by the factor `m_B²` in GeV²). -/
theorem C135_units_witness {u : ℝ} (hu : 0 < u) {q q' : Inp} {B lep : String} (h : Rescaled u q q' B lep) (wc : Wc) (q2 : ℝ) : dbr q' B lep wc (u ^ 2 * q2) = dbr q B lep wc q2 := by
  have k0 : kmFF q' B 0 = kmFF q B 0 := by simpa using kmFF_units hu h 0
  have e : ∀ f f0 s, q'.par ("tau_" ++ B) * dGds q' B lep wc f f0 s = q.par ("tau_" ++ B) * dGds q B lep wc f f0 s := by
    intro f f0 s
    have hm : q'.par ("m_" ++ lep) / q'.par ("m_" ++ B) = q.par ("m_" ++ lep) / q.par ("m_" ++ B) := by rw [h.ml, h.mB, mul_div_mul_left _ _ hu.ne']
    have hb : q'.mb / q'.par ("m_" ++ B) = q.mb / q.par ("m_" ++ B) := by rw [h.mb, h.mB, mul_div_mul_left _ _ hu.ne']
    have hf : q'.par ("f_" ++ B) / q'.par ("m_" ++ B) = q.par ("f_" ++ B) / q.par ("m_" ++ B) := by rw [h.fB, h.mB, mul_div_mul_left _ _ hu.ne']
    have hta : ffta q' B s f f0 wc = ffta q B s f f0 wc := by unfold ffta; rw [res_units hu h]
    have htv : fftv q' B s f f0 wc = fftv q B s f f0 wc := by
      unfold fftv; rw [res_units hu h, h.fB, h.mb]
      have hu' : (u : ℂ) ≠ 0 := by exact_mod_cast hu.ne'
      have : (16 / 3 * (-wc.C1 - wc.C2 / 3) / wc.C7 * ((u * q.par ("f_" ++ B) : ℝ) : ℂ) / ((u * q.mb : ℝ) : ℂ)) = 16 / 3 * (-wc.C1 - wc.C2 / 3) / wc.C7 * ((q.par ("f_" ++ B) : ℝ) : ℂ) / ((q.mb : ℝ) : ℂ) := by
        push_cast
        rw [show 16 / 3 * (-wc.C1 - wc.C2 / 3) / wc.C7 * ((u : ℂ) * (q.par ("f_" ++ B) : ℂ)) = u * (16 / 3 * (-wc.C1 - wc.C2 / 3) / wc.C7 * (q.par ("f_" ++ B) : ℂ)) by ring, mul_div_mul_left _ _ hu']
      rw [this]
    have hP : prefactor q' B = u * prefactor q B := by
      unfold prefactor; rw [h.GF, h.mB, h.al, h.xi]; field_simp
    unfold dGds
    simp only [hm, hb, hf, hta, htv, hP, h.tB, dG1, dG2, dG12]
    field_simp
  have c1 : (u ^ 2 * q2 ≤ 4 * q'.par ("m_" ++ lep) ^ 2 ∨ u ^ 2 * q2 > q'.par ("m_" ++ B) ^ 2) ↔ (q2 ≤ 4 * q.par ("m_" ++ lep) ^ 2 ∨ q2 > q.par ("m_" ++ B) ^ 2) := by
    rw [h.ml, h.mB, mul_pow, mul_pow, show 4 * (u ^ 2 * q.par ("m_" ++ lep) ^ 2) = u ^ 2 * (4 * q.par ("m_" ++ lep) ^ 2) by ring, gt_iff_lt, mul_le_mul_iff_right₀ (by positivity), mul_lt_mul_iff_right₀ (by positivity)]
  have c2 : u ^ 2 * q2 = q'.par ("m_" ++ B) ^ 2 ↔ q2 = q.par ("m_" ++ B) ^ 2 := by
    rw [h.mB, mul_pow, mul_right_inj' (by positivity)]
  have c3 : u ^ 2 * q2 / q'.par ("m_" ++ B) ^ 2 = q2 / q.par ("m_" ++ B) ^ 2 := by rw [h.mB, mul_pow, mul_div_mul_left _ _ (by positivity)]
  unfold dbr
  simp only [kmFF_units hu h, k0, c1, c2, c3, e]

/-! ## Coefficients -/

/-- **C135 (coefficients)** A common factor of all Wilson coefficients multiplies the rate by its squared modulus; in particular a common phase drops out. -/
theorem C135_scaling (q : Inp) (B lep : String) (wc : Wc) (k : ℂ) (hk : k ≠ 0) (ff ff0 : FF) (s : ℝ) :
    dGds q B lep ⟨k * wc.C1, k * wc.C2, k * wc.C7, k * wc.C9, k * wc.C10⟩ ff ff0 s = ‖k‖ ^ 2 * dGds q B lep wc ff ff0 s := by
  have htv : fftv q B s ff ff0 ⟨k * wc.C1, k * wc.C2, k * wc.C7, k * wc.C9, k * wc.C10⟩ = fftv q B s ff ff0 wc := by
    unfold fftv
    simp only
    rw [show 16 / 3 * (-(k * wc.C1) - k * wc.C2 / 3) / (k * wc.C7) = 16 / 3 * (-wc.C1 - wc.C2 / 3) / wc.C7 by
      rw [show 16 / 3 * (-(k * wc.C1) - k * wc.C2 / 3) = k * (16 / 3 * (-wc.C1 - wc.C2 / 3)) by ring, mul_div_mul_left _ _ hk]]
  have hta : ffta q B s ff ff0 ⟨k * wc.C1, k * wc.C2, k * wc.C7, k * wc.C9, k * wc.C10⟩ = ffta q B s ff ff0 wc := rfl
  have r : ∀ a b : ℂ, (k * a * conj (k * b)).re = ‖k‖ ^ 2 * (a * conj b).re := by
    intro a b; rw [nsq]; simp; ring
  have r1 : ∀ t : ℂ, (k * wc.C7 * t * conj (k * wc.C9)).re = ‖k‖ ^ 2 * (wc.C7 * t * conj wc.C9).re := fun t => by rw [mul_assoc k, r]
  have r2 : ∀ t : ℂ, (conj (k * wc.C10) * t * (k * wc.C7)).re = ‖k‖ ^ 2 * (conj wc.C10 * t * wc.C7).re := fun t => by
    rw [show conj (k * wc.C10) * t * (k * wc.C7) = k * (t * wc.C7) * conj (k * wc.C10) by ring, r, show t * wc.C7 * conj wc.C10 = conj wc.C10 * t * wc.C7 by ring]
  have n7 : ∀ t, ‖k * wc.C7 * t‖ = ‖k‖ * ‖wc.C7 * t‖ := fun t => by rw [mul_assoc, norm_mul]
  unfold dGds
  simp only [htv, hta, dG1, dG2, dG12, B10, B12, B120, getF1, getF2, r1, r2, r, n7, norm_mul]
  ring

/-- **C135 (four-quark operators)** The weak annihilation term multiplies `C7` by construction only: in the amplitude it is `16/3 a₁ f_B/m_b`, whatever `C7 ≠ 0` is. -/
theorem C135_annihilation (q : Inp) (B : String) (s : ℝ) (ff ff0 : FF) (wc : Wc) (h : wc.C7 ≠ 0) :
    wc.C7 * fftv q B s ff ff0 wc = wc.C7 * (ff.tv + ff0.tv - resSum q B s) - 16 / 3 * (wc.C1 + wc.C2 / 3) * (q.par ("f_" ++ B) : ℝ) / (q.mb : ℝ) := by
  unfold fftv
  rw [show wc.C7 * (↑ff.tv + ↑ff0.tv + 16 / 3 * (-wc.C1 - wc.C2 / 3) / wc.C7 * (q.par ("f_" ++ B) : ℂ) / (q.mb : ℂ) - resSum q B s)
    = wc.C7 * (↑ff.tv + ↑ff0.tv - resSum q B s) + (16 / 3 * (-wc.C1 - wc.C2 / 3)) * (wc.C7 / wc.C7) * (q.par ("f_" ++ B) : ℂ) / (q.mb : ℂ) by ring, div_self h]
  ring

/-! ## Positivity -/

/-- **C135 (witness: sign)** The direct emission becomes negative where the two tensor form factors differ: the interference of `C7` and `C9` in the vector part uses the axial form factor. -/
theorem C135_negative_witness : ∃ (q : Inp) (wc : Wc), Phys q "Bs" "mu" ∧ 0 < q.mb ∧ 0 < prefactor q "Bs" ∧ 0 < q.par ("tau_" ++ "Bs") ∧ ∃ x < 0, dbr q "Bs" "mu" wc (1 / 2) = .ok (some x) := by
  let par : String → ℝ := fun n => if n = "m_mu" then 1 / 10 else if n = "B->gamma KM betatv" then 0 else if n = "B->gamma KM betata" then 3 / 10
    else if n = "B->gamma KM betav" ∨ n = "B->gamma KM betaa" then 1 / 2 else if n = "Bs->phi BSZ a0_T1" then 0
    else if n = "B->gamma KM deltav" ∨ n = "B->gamma KM deltaa" ∨ n = "B->gamma KM deltatv" ∨ n = "B->gamma KM deltata" then 1 / 4 else 1
  let q : Inp := ⟨par, 1 / 2, 1, 1⟩
  let wc : Wc := ⟨0, 0, 1, -1, 0⟩
  have hph : Phys q "Bs" "mu" := by
    constructor <;> simp [q, par, resonances]
    norm_num
  have hP : 0 < prefactor q "Bs" := by
    have := Real.pi_pos
    simp [prefactor, q, par]; positivity
  have hm : q.par ("m_" ++ "Bs") = 1 := by simp [q, par]
  have hl : q.par ("m_" ++ "mu") = 1 / 10 := by simp [q, par]
  have hf : q.par ("f_" ++ "Bs") = 1 := by simp [q, par]
  have ht : q.par ("tau_" ++ "Bs") = 1 := by simp [q, par]
  refine ⟨q, wc, hph, by norm_num [q], hP, by rw [ht]; norm_num, _, ?_, (C135_region hph wc (1 / 2) (by rw [hm]; norm_num)).2 (by rw [hl]; norm_num)⟩
  have hr : ∀ s, resSum q "Bs" s = 0 := by intro s; simp [resSum, resonances, resTerm, resgV, q, par]
  have hk : kmVal q "Bs" (1 / 2) = ⟨1, 1, 0, 3 / 5⟩ := by
    unfold kmVal; simp only [hm, hf]; simp [q, par]; norm_num
  have hk0 : kmVal q "Bs" 0 = ⟨2 / 3, 2 / 3, 0, 2 / 5⟩ := by
    unfold kmVal; simp only [hm, hf]; simp [q, par]; norm_num
  have htv : fftv q "Bs" (1 / 2) ⟨1, 1, 0, 3 / 5⟩ ⟨2 / 3, 2 / 3, 0, 2 / 5⟩ wc = 0 := by simp [fftv, hr, wc]
  have hta : ffta q "Bs" (1 / 2) ⟨1, 1, 0, 3 / 5⟩ ⟨2 / 3, 2 / 3, 0, 2 / 5⟩ wc = 1 := by
    simp only [ffta, hr, sub_zero]; push_cast; norm_num
  rw [hk, hk0, ht, hm]
  unfold dGds
  simp only [one_pow, div_one, htv, hta, hm, hl, hf]
  have hC : wc.C10 = 0 := rfl
  have e2 : ∀ P s m r, dG2 P s m r wc = 0 := by intro P s m r; simp [dG2, hC]
  have e3 : ∀ P s a m r f t, dG12 P s a m r f t wc = 0 := by intro P s a m r f t; simp [dG12, B120, hC]
  rw [e2, e3, add_zero, add_zero, one_mul]
  unfold dG1
  rw [bracket_eq _ _ _ (by norm_num)]
  have hF1 : getF1 (1 / 2) q.mb ⟨1, 1, 0, 3 / 5⟩ 0 1 wc = -3 := by
    simp [getF1, wc, q]; norm_num
  have hF2 : getF2 (1 / 2) q.mb ⟨1, 1, 0, 3 / 5⟩ 0 1 wc = 1 := by
    simp [getF2, wc, q]
  rw [hF1, hF2, hC]
  have hs : 0 < Real.sqrt (1 - 4 * (1 / 10 : ℝ) ^ 2 / (1 / 2)) := Real.sqrt_pos.2 (by norm_num)
  refine mul_neg_of_pos_of_neg (mul_pos (mul_pos hP (by norm_num)) hs) ?_
  norm_num

/-! ## Bins -/

/-- **C135 (bins)** A bin inside the phase space is the mean of the differential observable. -/
theorem C135_bins (nint : Angular.Nint) (hx : Angular.Exact nint) {q : Inp} {B lep : String} (h : Phys q B lep) (wc : Wc) (a b : ℝ) (ha : 4 * q.par ("m_" ++ lep) ^ 2 < a) (hab : a < b) (hb : b < q.par ("m_" ++ B) ^ 2) :
    dbrInt nint q B lep wc a b = (∫ x in a..b, dbrVal q B lep wc x) / (b - a)
    ∧ ∀ lo hi, (∀ x ∈ Set.Icc a b, lo ≤ dbrVal q B lep wc x ∧ dbrVal q B lep wc x ≤ hi) → lo ≤ dbrInt nint q B lep wc a b ∧ dbrInt nint q B lep wc a b ≤ hi := by
  have hM := h.mB
  have hcont : ContinuousOn (dbrVal q B lep wc) (Set.Icc a b) := by
    have h1 : ContinuousOn (fun x => q.par ("tau_" ++ B) * (rest q B lep wc x + (1 - x / q.par ("m_" ++ B) ^ 2)⁻¹ * ((1 - x / q.par ("m_" ++ B) ^ 2) * dG2 (prefactor q B) (x / q.par ("m_" ++ B) ^ 2) (q.par ("m_" ++ lep) / q.par ("m_" ++ B)) (q.par ("f_" ++ B) / q.par ("m_" ++ B)) wc))) (Set.Icc a b) := by
      have r := (rest_cont h wc).mono (show Set.Icc a b ⊆ _ from fun x hx => ⟨ha.trans_le hx.1, hx.2.trans hb.le⟩)
      have l := (lep_cont h wc).1.mono (show Set.Icc a b ⊆ _ from fun x hx => ⟨ha.trans_le hx.1, hx.2.trans_lt hb⟩)
      have i : ContinuousOn (fun x => (1 - x / q.par ("m_" ++ B) ^ 2)⁻¹) (Set.Icc a b) := by
        refine ContinuousOn.inv₀ (by fun_prop) fun x hx => ?_
        have : x / q.par ("m_" ++ B) ^ 2 < 1 := (div_lt_one (by positivity)).2 (hx.2.trans_lt hb)
        linarith
      exact continuousOn_const.mul (r.add (i.mul l))
    refine h1.congr fun x hx => ?_
    have : 1 - x / q.par ("m_" ++ B) ^ 2 ≠ 0 := by
      have : x / q.par ("m_" ++ B) ^ 2 < 1 := (div_lt_one (by positivity)).2 (hx.2.trans_lt hb)
      linarith
    rw [dbrVal_eq h wc (ha.trans_le hx.1) (hx.2.trans_lt hb)]; beta_reduce; rw [inv_mul_cancel_left₀ this]
  have hi : IntervalIntegrable (dbrVal q B lep wc) volume a b := (by rw [Set.uIcc_of_le hab.le]; exact hcont : ContinuousOn _ (Set.uIcc a b)).intervalIntegrable
  have e : dbrInt nint q B lep wc a b = (∫ x in a..b, dbrVal q B lep wc x) / (b - a) := by unfold dbrInt; rw [hx _ _ _ _ hi]
  refine ⟨e, fun lo hi' hbd => ?_⟩
  rw [e]
  have hba : 0 < b - a := by linarith
  have l1 := intervalIntegral.integral_mono_on hab.le intervalIntegrable_const hi (fun x hx => (hbd x hx).1)
  have l2 := intervalIntegral.integral_mono_on hab.le hi intervalIntegrable_const (fun x hx => (hbd x hx).2)
  simp only [intervalIntegral.integral_const, smul_eq_mul] at l1 l2
  rw [le_div_iff₀ hba, div_le_iff₀ hba]
  constructor <;> linarith

/-- **C135 (witness: bins)** A bin that reaches the end of the phase space has no value: the integral over the soft photons diverges. -/
theorem C135_bin_witness {q : Inp} {B lep : String} (h : Phys q B lep) (wc : Wc) (hf : q.par ("f_" ++ B) ≠ 0) (hC : wc.C10 ≠ 0) (hP : 0 < prefactor q B) (ht : 0 < q.par ("tau_" ++ B)) (a b : ℝ)
    (ha : a < q.par ("m_" ++ B) ^ 2) (hb : q.par ("m_" ++ B) ^ 2 ≤ b) : ¬ IntervalIntegrable (dbrVal q B lep wc) volume a b := by
  intro hI
  have hM := h.mB; have hm := h.ml
  set M2 := q.par ("m_" ++ B) ^ 2 with hM2
  have hM2p : 0 < M2 := by positivity
  have hI' : IntervalIntegrable (dbrVal q B lep wc) volume a M2 := hI.mono_set (by rw [Set.uIcc_of_le ha.le, Set.uIcc_of_le (ha.le.trans hb)]; exact Set.Icc_subset_Icc le_rfl hb)
  refine not_intervalIntegrable_of_tendsto_norm_atTop_of_deriv_isBigO_within_sdiff_singleton (f := fun x => Real.log (M2 - x)) (c := M2) ha.ne Set.right_mem_uIcc ?_ ?_ ?_ hI'
  all_goals rw [Set.uIcc_of_le ha.le, Set.Icc_sdiff_right, nhdsWithin_Ico_eq_nhdsLT ha]
  · filter_upwards [self_mem_nhdsWithin] with x hx
    exact ((hasDerivAt_id x).const_sub M2).log (by have : x < M2 := hx; simp only [id]; linarith) |>.differentiableAt
  · have h1 : Tendsto (fun x => M2 - x) (𝓝[<] M2) (𝓝[>] 0) := by
      refine tendsto_nhdsWithin_iff.2 ⟨?_, ?_⟩
      · have : Tendsto (fun x => M2 - x) (𝓝 M2) (𝓝 (M2 - M2)) := (continuous_const.sub continuous_id).tendsto M2
        rw [sub_self] at this; exact this.mono_left nhdsWithin_le_nhds
      · filter_upwards [self_mem_nhdsWithin] with x hx; have hx : x < M2 := hx; exact sub_pos.2 hx
    exact tendsto_abs_atBot_atTop.comp (Real.tendsto_log_nhdsGT_zero.comp h1)
  · obtain ⟨v0, v1⟩ := vel_mem h
    have hL := C135_soft_limit h wc
    rw [← hM2] at hL
    set c := q.par ("tau_" ++ B) * (128 * prefactor q B * (q.par ("f_" ++ B) / q.par ("m_" ++ B) * ‖wc.C10‖ * (q.par ("m_" ++ lep) / q.par ("m_" ++ B))) ^ 2 * (Real.artanh (vel q B lep) - vel q B lep)) with hc
    have hcp : 0 < c := by
      have : 0 < Real.artanh (vel q B lep) - vel q B lep := sub_pos.2 (artanh_gt v0 v1)
      have h10 : 0 < ‖wc.C10‖ := norm_pos_iff.2 hC
      have : q.par ("f_" ++ B) / q.par ("m_" ++ B) * ‖wc.C10‖ * (q.par ("m_" ++ lep) / q.par ("m_" ++ B)) ≠ 0 := by positivity
      positivity
    refine Asymptotics.IsBigO.of_bound (2 / (c * M2)) ?_
    filter_upwards [hL.eventually (lt_mem_nhds (show c / 2 < c by linarith)), self_mem_nhdsWithin] with x hx hlt
    have hx0 : 0 < M2 - x := sub_pos.2 hlt
    have hd : deriv (fun x => Real.log (M2 - x)) x = -1 / (M2 - x) := (((hasDerivAt_id x).const_sub M2).log hx0.ne').deriv
    rw [hd, norm_div, norm_neg, norm_one, Real.norm_eq_abs, abs_of_pos hx0, Real.norm_eq_abs]
    have e : 1 - x / M2 = (M2 - x) / M2 := by field_simp
    rw [e] at hx
    have : c / 2 * M2 < (M2 - x) * dbrVal q B lep wc x := by
      have := mul_lt_mul_of_pos_right hx hM2p
      rwa [show (M2 - x) / M2 * dbrVal q B lep wc x * M2 = (M2 - x) * dbrVal q B lep wc x by field_simp] at this
    have h2 : c / 2 * M2 < (M2 - x) * |dbrVal q B lep wc x| := this.trans_le (mul_le_mul_of_nonneg_left (le_abs_self _) hx0.le)
    rw [div_le_iff₀ hx0, div_mul_eq_mul_div, div_mul_eq_mul_div, le_div_iff₀ (by positivity)]
    nlinarith

/-- **C135 (names)** Eight observables, differential and binned for electrons and muons and both mesons. -/
theorem C135_names : names.Nodup ∧ names.length = 8 ∧ "dBR/dq2(Bs->mumugamma)" ∈ names ∧ "<dBR/dq2>(B0->eegamma)" ∈ names := by
  refine ⟨by decide +kernel, by decide +kernel, by decide +kernel, by decide +kernel⟩

/-- The hypotheses on the parameters are met by realistic values. -/
example : ∃ q : Inp, Phys q "Bs" "mu" ∧ Phys q "B0" "e" ∧ 0 < prefactor q "Bs" ∧ q.par ("f_" ++ "Bs") ≠ 0 := by
  have := Real.pi_pos
  refine ⟨⟨fun n => if n = "m_mu" then 0.10566 else if n = "m_e" then 0.000511 else if n = "m_Bs" then 5.367 else if n = "m_B0" then 5.28 else 1, 4.2, 1 / 133, 0.04⟩, ?_, ?_, ?_, ?_⟩
  · constructor <;> simp [resonances] <;> norm_num
  · constructor <;> simp [resonances] <;> norm_num
  · have hn : 0 < ‖(0.04 : ℂ)‖ := norm_pos_iff.2 (by norm_num)
    simp [prefactor]; positivity
  · simp

/-! ## Resonances -/

/-- **C135 (resonances).** The vector mesons that the photon can turn into: the phi for the `Bs`, the rho and the omega for the `B0`, each
with a simple pole at its complex mass and with its charge factor and its form factor at zero momentum transfer; none for another
name. -/
theorem C135_resonances (q : Inp) (s : ℝ) :
    let m := fun V => q.par ("m_" ++ V)
    let pole := fun (B V : String) => ((m B ^ 2 * s - m V ^ 2 : ℝ) : ℂ) + I * (m V / q.par ("tau_" ++ V) : ℝ)
    resSum q "Bs" s = (2 / 3 * q.par "f_phi" * q.par "Bs->phi BSZ a0_T1" * q.par "m_Bs" ^ 2 * s / q.par "m_phi" : ℝ) / pole "Bs" "phi" ∧
    resSum q "B0" s = (q.par "f_rho0" * q.par "B->rho BSZ a0_T1" * q.par "m_B0" ^ 2 * s / q.par "m_rho0" : ℝ) / pole "B0" "rho0"
      - (1 / 3 * q.par "f_omega" * q.par "B->omega BSZ a0_T1" * q.par "m_B0" ^ 2 * s / q.par "m_omega" : ℝ) / pole "B0" "omega" ∧
    ∀ B, B ≠ "Bs" → B ≠ "B0" → resSum q B s = 0 := by
  have h2 : Real.sqrt 2 * Real.sqrt 2 = 2 := Real.mul_self_sqrt (by norm_num)
  have hs : Real.sqrt 2 ≠ 0 := by positivity
  refine ⟨?_, ?_, ?_⟩
  · simp only [resSum, resonances, List.map_cons, List.map_nil, List.sum_cons, List.sum_nil, add_zero, resTerm, emFactor, resgV]
    congr 2
    show _ = 2 / 3 * q.par "f_phi" * _ * q.par "m_Bs" ^ 2 * s / q.par "m_phi"
    simp only [show "f_" ++ "phi" = "f_phi" from rfl, show "m_" ++ "Bs" = "m_Bs" from rfl, show "m_" ++ "phi" = "m_phi" from rfl]
    ring
  · simp only [resSum, resonances, List.map_cons, List.map_nil, List.sum_cons, List.sum_nil, add_zero, resTerm, emFactor, resgV]
    refine Eq.trans ?_ (show _ + (-(1 / 3 * q.par "f_omega" * q.par "B->omega BSZ a0_T1" * q.par "m_B0" ^ 2 * s / q.par "m_omega") : ℝ) /
      (((q.par "m_B0" ^ 2 * s - q.par "m_omega" ^ 2 : ℝ) : ℂ) + I * (q.par "m_omega" / q.par "tau_omega" : ℝ)) = _ by
        rw [ofReal_neg, neg_div, ← sub_eq_add_neg]; rfl)
    simp only [show "f_" ++ "rho0" = "f_rho0" from rfl, show "m_" ++ "B0" = "m_B0" from rfl, show "m_" ++ "rho0" = "m_rho0" from rfl,
      show "f_" ++ "omega" = "f_omega" from rfl, show "m_" ++ "omega" = "m_omega" from rfl]
    congr 3
    · rw [div_mul_eq_mul_div, div_mul_eq_mul_div]
      congr 1
      field_simp
      rw [show Real.sqrt 2 ^ 2 = 2 from by rw [pow_two, h2]]
      try ring
    · congr 1
      field_simp
      rw [show Real.sqrt 2 ^ 2 = 2 from by rw [pow_two, h2]]
  · intro B h1 h3
    simp only [resSum, resonances, h1, h3]
    rfl

end Verif.Bllgamma
