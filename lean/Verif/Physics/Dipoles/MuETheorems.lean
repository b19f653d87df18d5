import Verif.Physics.Dipoles.MuE
import Verif.Physics.Dipoles.EdmTheorems
import Verif.Physics.Quarkonium.VllTheorems
set_option linter.unusedVariables false
set_option linter.unusedSimpArgs false
namespace Verif.MuE
open Verif.Py Verif.Running Verif.Edm Complex

/-! ## Specification: the conversion rate as one formula in coefficients and overlap integrals -/

/-- One chirality's amplitude from its dipole coefficient, vector coefficients of u, d and scalar coefficients of u, d, s,
with overlap integrals `D, Vp, Vn, Sp, Sn` and nucleon scalar charges `a` (u in p), `b` (d in p), `c` (s).
(Specification.) -/
noncomputable def amp (m D Vp Vn Sp Sn a b c : ℝ) (dip vu vd su sd ss : ℂ) : ℂ :=
  (D : ℂ) / (4 * m) * dip + ((Vp : ℂ) * (2 * vu + vd) + (Vn : ℂ) * (vu + 2 * vd)) / 2
    + ((Sp : ℂ) * (a * su + b * sd + c * ss) + (Sn : ℂ) * (b * su + a * sd + c * ss)) / 2

/-- Amplitude with a left-handed electron. (Specification.) -/
noncomputable def ampL (d : Inp) (m D Vp Vn Sp Sn a b c : ℝ) : ℂ :=
  amp m D Vp Vn Sp Sn a b c (d.wc "Cgamma_mue") (d.wc "CVLL_mueuu" + d.wc "CVLR_mueuu") (d.wc "CVLL_muedd" + d.wc "CVLR_muedd")
    (d.wc "CSRR_mueuu" + d.wc "CSRL_mueuu") (d.wc "CSRR_muedd" + d.wc "CSRL_muedd") (d.wc "CSRR_muess" + d.wc "CSRL_muess")
/-- Amplitude with a right-handed electron. (Specification.) -/
noncomputable def ampR (d : Inp) (m D Vp Vn Sp Sn a b c : ℝ) : ℂ :=
  amp m D Vp Vn Sp Sn a b c (starRingEnd ℂ (d.wc "Cgamma_emu")) (d.wc "CVRR_mueuu" + d.wc "CVLR_uumue") (d.wc "CVRR_muedd" + d.wc "CVLR_ddmue")
    (starRingEnd ℂ (d.wc "CSRR_emuuu" + d.wc "CSRL_emuuu")) (starRingEnd ℂ (d.wc "CSRR_emudd" + d.wc "CSRL_emudd"))
    (starRingEnd ℂ (d.wc "CSRR_emuss" + d.wc "CSRL_emuss"))

/-- The rate: `4 m^5 (|L|² + |R|²) / ω_capt`. (Specification.) -/
noncomputable def rate (d : Inp) (nucl : String) : ℝ :=
  let m := d.par "m_mu"
  let a := (2 * d.par "sigma_piN" / (d.getMd 3 + d.getMu 3) + d.par "gS_u-d") / 2
  let b := (2 * d.par "sigma_piN" / (d.getMd 3 + d.getMu 3) - d.par "gS_u-d") / 2
  let c := d.par "sigma_s" / d.getMs 3
  let X (f : Inp → ℝ → ℝ → ℝ → ℝ → ℝ → ℝ → ℝ → ℝ → ℝ → ℂ) : ℂ :=
    f d m (d.par ("D " ++ nucl)) (d.par ("Vp " ++ nucl)) (d.par ("Vn " ++ nucl)) (d.par ("Sp " ++ nucl)) (d.par ("Sn " ++ nucl)) a b c
  4 * m ^ 5 * (‖X ampL‖ ^ 2 + ‖X ampR‖ ^ 2) / d.par ("GammaCapture " ++ nucl)

/-- The code computes that rate; in particular the Fermi constant cancels. -/
theorem C118_value (d : Inp) (nucl : String) (h1 : d.getMd 3 + d.getMu 3 ≠ 0) (h2 : d.getMs 3 ≠ 0) (hG : d.par "GF" ≠ 0)
    (hm : 0 < d.par "m_mu") : crMue d nucl = .ok (rate d nucl) := by
  obtain ⟨c, hc⟩ := (C117_charges d).1.mpr ⟨h1, h2⟩
  obtain ⟨e1, e2, e3, _⟩ := (C117_charges d).2.2 c hc
  simp only [crMue, hc, Bind.bind, Except.bind, pure, Except.pure, e1, e2, e3, rate, ampL, ampR]
  congr 2
  generalize d.par ("D " ++ nucl) = D
  generalize d.par ("Sp " ++ nucl) = Sp
  generalize d.par ("Vp " ++ nucl) = Vp
  generalize d.par ("Sn " ++ nucl) = Sn
  generalize d.par ("Vn " ++ nucl) = Vn
  generalize (2 * d.par "sigma_piN" / (d.getMd 3 + d.getMu 3)) = S
  generalize d.par "gS_u-d" = T
  generalize d.par "sigma_s" / d.getMs 3 = U
  generalize hGF : d.par "GF" = G at *
  generalize hmm : d.par "m_mu" = m at *
  obtain ⟨r, hr⟩ : ∃ r : ℝ, r = m ^ (5 / 2 : ℝ) := ⟨_, rfl⟩
  have hr2 : r ^ 2 = m ^ 5 := by
    rw [hr, ← Real.rpow_natCast, ← Real.rpow_mul hm.le]; norm_num
  rw [← hr]
  have hs : Real.sqrt 2 ^ 2 = 2 := Real.sq_sqrt (by norm_num)
  have hmc : (m : ℂ) ≠ 0 := by exact_mod_cast hm.ne'
  have hGc : (G : ℂ) ≠ 0 := by exact_mod_cast hG
  have key : ∀ (dip vu vd su sd ss : ℂ) (X : ℂ),
      X = ((-Real.sqrt 2 / G * r : ℝ) : ℂ) * amp m D Vp Vn Sp Sn ((S + T) / 2) ((S - T) / 2) U dip vu vd su sd ss →
      2 * G ^ 2 * ‖X‖ ^ 2 = 4 * m ^ 5 * ‖amp m D Vp Vn Sp Sn ((S + T) / 2) ((S - T) / 2) U dip vu vd su sd ss‖ ^ 2 := by
    intro dip vu vd su sd ss X hX
    rw [hX, norm_mul, mul_pow, Complex.norm_real, Real.norm_eq_abs, sq_abs, ← hr2]
    have : (-Real.sqrt 2 / G * r) ^ 2 = 2 / G ^ 2 * r ^ 2 := by rw [mul_pow, div_pow, neg_sq, hs]
    rw [this]; field_simp; ring
  have tw : ∀ x y z w : ℝ, 2 * G ^ 2 * x = 4 * m ^ 5 * z → 2 * G ^ 2 * y = 4 * m ^ 5 * w → 2 * G ^ 2 * (x + y) = 4 * m ^ 5 * (z + w) := by
    intro x y z w p q; linear_combination p + q
  apply tw
  · apply key
    simp only [amp, map_mul, Complex.conj_ofReal, Complex.conj_conj]
    push_cast
    field_simp
    ring
  · apply key
    simp only [amp, map_mul, map_add, Complex.conj_ofReal, Complex.conj_conj]
    push_cast
    field_simp
    ring

/-- The up+down or strange mass being zero is the only exception raised. -/
theorem C118_error (d : Inp) (nucl : String) :
    (¬ (d.getMd 3 + d.getMu 3 ≠ 0 ∧ d.getMs 3 ≠ 0) → crMue d nucl = .error .zeroDivisionError)
    ∧ ((∃ x, crMue d nucl = .ok x) ↔ (d.getMd 3 + d.getMu 3 ≠ 0 ∧ d.getMs 3 ≠ 0)) := by
  have A : ¬ (d.getMd 3 + d.getMu 3 ≠ 0 ∧ d.getMs 3 ≠ 0) → crMue d nucl = .error .zeroDivisionError := by
    intro h
    simp only [crMue, (C117_charges d).2.1 h, Bind.bind, Except.bind]
  refine ⟨A, fun ⟨x, hx⟩ => ?_, fun h => ?_⟩
  · by_contra h; rw [A h] at hx; cases hx
  · obtain ⟨c, hc⟩ := (C117_charges d).1.mpr h
    simp only [crMue, hc, Bind.bind, Except.bind]; exact ⟨_, rfl⟩

/-- Conversion rates are non-negative for a positive capture rate, whatever the coefficients. -/
theorem C118_nonneg (d : Inp) (nucl : String) (x : ℝ) (hc : 0 < d.par ("GammaCapture " ++ nucl)) (hx : crMue d nucl = .ok x) : 0 ≤ x := by
  obtain ⟨c, e⟩ := (C117_charges d).1.mpr ((C118_error d nucl).2.mp ⟨x, hx⟩)
  simp only [crMue, e, Bind.bind, Except.bind, pure, Except.pure, Except.ok.injEq] at hx
  rw [← hx]; positivity

/-- The 21 coefficients that matter. (Specification.) -/
def used : List String :=
  ["Cgamma_mue", "Cgamma_emu", "CVLL_mueuu", "CVLR_mueuu", "CVLL_muedd", "CVLR_muedd", "CVRR_mueuu", "CVLR_uumue", "CVRR_muedd", "CVLR_ddmue",
   "CSRR_mueuu", "CSRL_mueuu", "CSRR_muedd", "CSRL_muedd", "CSRR_muess", "CSRL_muess",
   "CSRR_emuuu", "CSRL_emuuu", "CSRR_emudd", "CSRL_emudd", "CSRR_emuss", "CSRL_emuss"]

/-- Nothing else is read: strange vector currents, tensors and axial combinations do not change the rate. -/
theorem C118_reads (d : Inp) (w : String → ℂ) (h : ∀ n ∈ used, w n = d.wc n) (nucl : String) : crMue { d with wc := w } nucl = crMue d nucl := by
  have e : ∀ n, n ∈ used → w n = d.wc n := h
  simp only [used, List.forall_mem_cons, List.not_mem_nil, false_implies, implies_true, and_true] at h
  obtain ⟨a1, a2, a3, a4, a5, a6, a7, a8, a9, a10, a11, a12, a13, a14, a15, a16, a17, a18, a19, a20, a21, a22⟩ := h
  have p : protonCharges { d with wc := w } = protonCharges d := rfl
  simp only [crMue, p, a1, a2, a3, a4, a5, a6, a7, a8, a9, a10, a11, a12, a13, a14, a15, a16, a17, a18, a19, a20, a21, a22]
example : "CVLL_muess" ∉ used ∧ "CVRR_muess" ∉ used ∧ "CVLR_muess" ∉ used ∧ "CVLR_ssmue" ∉ used ∧ "CTRR_mueuu" ∉ used := by decide

/-- In the Standard Model (no lepton-flavour violation) the rate is zero; and scaling every coefficient by a real `t`
scales the rate by `t²`. -/
theorem C118_scaling (d : Inp) (nucl : String) (h1 : d.getMd 3 + d.getMu 3 ≠ 0) (h2 : d.getMs 3 ≠ 0) (hG : d.par "GF" ≠ 0)
    (hm : 0 < d.par "m_mu") (t x : ℝ) (hx : crMue d nucl = .ok x) :
    crMue { d with wc := fun n => (t : ℂ) * d.wc n } nucl = .ok (t ^ 2 * x)
    ∧ ((∀ n ∈ used, d.wc n = 0) → x = 0) := by
  have key : ∀ t : ℝ, crMue { d with wc := fun n => (t : ℂ) * d.wc n } nucl = .ok (t ^ 2 * x) := by
    intro t
    rw [C118_value d nucl h1 h2 hG hm] at hx; injection hx with hx
    rw [C118_value { d with wc := fun n => (t : ℂ) * d.wc n } nucl h1 h2 hG hm, ← hx]
    congr 1
    have L : ∀ m D Vp Vn Sp Sn a b c, ampL { d with wc := fun n => (t : ℂ) * d.wc n } m D Vp Vn Sp Sn a b c = (t : ℂ) * ampL d m D Vp Vn Sp Sn a b c := by
      intros; simp only [ampL, amp]; ring
    have R : ∀ m D Vp Vn Sp Sn a b c, ampR { d with wc := fun n => (t : ℂ) * d.wc n } m D Vp Vn Sp Sn a b c = (t : ℂ) * ampR d m D Vp Vn Sp Sn a b c := by
      intros; simp only [ampR, amp, map_mul, map_add, Complex.conj_ofReal]; ring
    simp only [rate, L, R, norm_mul, mul_pow, Complex.norm_real, Real.norm_eq_abs, sq_abs]
    ring
  refine ⟨key t, fun hz => ?_⟩
  have := key 0
  rw [C118_reads d (fun n => ((0:ℝ) : ℂ) * d.wc n) (fun n hn => by rw [hz n hn, mul_zero]) nucl, hx] at this
  injection this with this; rw [this]; ring

/-- Rephasing of the lepton fields: multiplying all `μe` coefficients by a phase and all `eμ` coefficients by its
conjugate leaves the rate unchanged. -/
theorem C118_rephasing (d : Inp) (nucl : String) (h1 : d.getMd 3 + d.getMu 3 ≠ 0) (h2 : d.getMs 3 ≠ 0) (hG : d.par "GF" ≠ 0)
    (hm : 0 < d.par "m_mu") (u : ℂ) (hu : ‖u‖ = 1) (w : String → ℂ)
    (hw : ∀ n ∈ used, w n = (if n ∈ ["Cgamma_emu", "CSRR_emuuu", "CSRL_emuuu", "CSRR_emudd", "CSRL_emudd", "CSRR_emuss", "CSRL_emuss"]
      then starRingEnd ℂ u else u) * d.wc n) :
    crMue { d with wc := w } nucl = crMue d nucl := by
  rw [C118_value { d with wc := w } nucl h1 h2 hG hm, C118_value d nucl h1 h2 hG hm]
  simp only [used, List.forall_mem_cons, List.not_mem_nil, false_implies, implies_true, and_true] at hw
  obtain ⟨a1, a2, a3, a4, a5, a6, a7, a8, a9, a10, a11, a12, a13, a14, a15, a16, a17, a18, a19, a20, a21, a22⟩ := hw
  simp at a1 a2 a3 a4 a5 a6 a7 a8 a9 a10 a11 a12 a13 a14 a15 a16 a17 a18 a19 a20 a21 a22
  have L : ∀ m D Vp Vn Sp Sn a b c, ampL { d with wc := w } m D Vp Vn Sp Sn a b c = u * ampL d m D Vp Vn Sp Sn a b c := by
    intros; simp only [ampL, amp, a1, a3, a4, a5, a6, a11, a12, a13, a14, a15, a16]; ring
  have R : ∀ m D Vp Vn Sp Sn a b c, ampR { d with wc := w } m D Vp Vn Sp Sn a b c = u * ampR d m D Vp Vn Sp Sn a b c := by
    intros; simp only [ampR, amp, a2, a7, a8, a9, a10, a17, a18, a19, a20, a21, a22, map_mul, map_add, Complex.conj_conj]; ring
  simp only [rate, L, R, norm_mul, hu, one_mul]

/-- Parity: exchanging the roles of the two electron chiralities leaves the rate unchanged. -/
theorem C118_chirality (d d' : Inp) (nucl : String) (h1 : d.getMd 3 + d.getMu 3 ≠ 0) (h2 : d.getMs 3 ≠ 0) (hG : d.par "GF" ≠ 0)
    (hm : 0 < d.par "m_mu") (w : String → ℂ) (hd : d' = { d with wc := w })
    (k1 : w "Cgamma_mue" = starRingEnd ℂ (d.wc "Cgamma_emu")) (k2 : w "Cgamma_emu" = starRingEnd ℂ (d.wc "Cgamma_mue"))
    (k3 : ∀ q ∈ ["u", "d"], w ("CVLL_mue" ++ q ++ q) = d.wc ("CVRR_mue" ++ q ++ q) ∧ w ("CVRR_mue" ++ q ++ q) = d.wc ("CVLL_mue" ++ q ++ q)
      ∧ w ("CVLR_mue" ++ q ++ q) = d.wc ("CVLR_" ++ q ++ q ++ "mue") ∧ w ("CVLR_" ++ q ++ q ++ "mue") = d.wc ("CVLR_mue" ++ q ++ q))
    (k4 : ∀ q ∈ ["u", "d", "s"], w ("CSRR_mue" ++ q ++ q) = starRingEnd ℂ (d.wc ("CSRR_emu" ++ q ++ q)) ∧ w ("CSRR_emu" ++ q ++ q) = starRingEnd ℂ (d.wc ("CSRR_mue" ++ q ++ q))
      ∧ w ("CSRL_mue" ++ q ++ q) = starRingEnd ℂ (d.wc ("CSRL_emu" ++ q ++ q)) ∧ w ("CSRL_emu" ++ q ++ q) = starRingEnd ℂ (d.wc ("CSRL_mue" ++ q ++ q))) :
    crMue d' nucl = crMue d nucl := by
  subst hd
  rw [C118_value { d with wc := w } nucl h1 h2 hG hm, C118_value d nucl h1 h2 hG hm]
  obtain ⟨u1, u2, u3, u4⟩ := k3 "u" (by simp)
  obtain ⟨d1, d2, d3, d4⟩ := k3 "d" (by simp)
  obtain ⟨x1, x2, x3, x4⟩ := k4 "u" (by simp)
  obtain ⟨y1, y2, y3, y4⟩ := k4 "d" (by simp)
  obtain ⟨z1, z2, z3, z4⟩ := k4 "s" (by simp)
  simp only [String.reduceAppend] at u1 u2 u3 u4 d1 d2 d3 d4 x1 x2 x3 x4 y1 y2 y3 y4 z1 z2 z3 z4
  have L : ∀ m D Vp Vn Sp Sn a b c, ampL { d with wc := w } m D Vp Vn Sp Sn a b c = ampR d m D Vp Vn Sp Sn a b c := by
    intros; simp only [ampL, ampR, k1, u1, u3, d1, d3, x1, x3, y1, y3, z1, z3, map_add]
  have R : ∀ m D Vp Vn Sp Sn a b c, ampR { d with wc := w } m D Vp Vn Sp Sn a b c = ampL d m D Vp Vn Sp Sn a b c := by
    intros; simp only [ampL, ampR, k2, u2, u4, d2, d4, x2, x4, y2, y4, z2, z4, map_add, Complex.conj_conj]
  congr 1; simp only [rate, L, R]
  ring

/-- Isospin: exchanging up and down coefficients together with proton and neutron overlap integrals leaves the rate
unchanged. -/
theorem C118_isospin (d : Inp) (nucl : String) (h1 : d.getMd 3 + d.getMu 3 ≠ 0) (h2 : d.getMs 3 ≠ 0) (hG : d.par "GF" ≠ 0)
    (hm : 0 < d.par "m_mu") (p : String → ℝ) (w : String → ℂ)
    (hp : ∀ n ∈ ["m_mu", "GF", "sigma_piN", "gS_u-d", "sigma_s", "D " ++ nucl, "GammaCapture " ++ nucl], p n = d.par n)
    (hpn : p ("Vp " ++ nucl) = d.par ("Vn " ++ nucl) ∧ p ("Vn " ++ nucl) = d.par ("Vp " ++ nucl)
      ∧ p ("Sp " ++ nucl) = d.par ("Sn " ++ nucl) ∧ p ("Sn " ++ nucl) = d.par ("Sp " ++ nucl))
    (hg : ∀ n ∈ ["Cgamma_mue", "Cgamma_emu", "CSRR_muess", "CSRL_muess", "CSRR_emuss", "CSRL_emuss"], w n = d.wc n)
    (hq : ∀ n ∈ ["CVLL_mue", "CVLR_mue", "CVRR_mue", "CSRR_mue", "CSRL_mue", "CSRR_emu", "CSRL_emu"],
      w (n ++ "uu") = d.wc (n ++ "dd") ∧ w (n ++ "dd") = d.wc (n ++ "uu"))
    (hr : w "CVLR_uumue" = d.wc "CVLR_ddmue" ∧ w "CVLR_ddmue" = d.wc "CVLR_uumue") :
    crMue { d with par := p, wc := w } nucl = crMue d nucl := by
  simp only [List.forall_mem_cons, List.not_mem_nil, false_implies, implies_true, and_true] at hp hg hq
  obtain ⟨p1, p2, p3, p4, p5, p6, p7⟩ := hp
  obtain ⟨v1, v2, v3, v4⟩ := hpn
  obtain ⟨g1, g2, g3, g4, g5, g6⟩ := hg
  obtain ⟨⟨a1, b1⟩, ⟨a2, b2⟩, ⟨a3, b3⟩, ⟨a4, b4⟩, ⟨a5, b5⟩, ⟨a6, b6⟩, ⟨a7, b7⟩⟩ := hq
  obtain ⟨r1, r2⟩ := hr
  simp only [String.reduceAppend] at a1 a2 a3 a4 a5 a6 a7 b1 b2 b3 b4 b5 b6 b7
  rw [C118_value { d with par := p, wc := w } nucl h1 h2 (by show p "GF" ≠ 0; rw [p2]; exact hG) (by show 0 < p "m_mu"; rw [p1]; exact hm), C118_value d nucl h1 h2 hG hm]
  congr 1
  have L : ∀ m D Vp Vn Sp Sn a b c, ampL { d with par := p, wc := w } m D Vp Vn Sp Sn a b c = ampL d m D Vn Vp Sn Sp a b c := by
    intros; simp only [ampL, amp, g1, g3, g4, a1, a2, a4, a5, b1, b2, b4, b5]; ring
  have R : ∀ m D Vp Vn Sp Sn a b c, ampR { d with par := p, wc := w } m D Vp Vn Sp Sn a b c = ampR d m D Vn Vp Sn Sp a b c := by
    intros; simp only [ampR, amp, g2, g5, g6, a3, a6, a7, b3, b6, b7, r1, r2]; ring
  simp only [rate, L, R, p1, p3, p4, p5, p6, p7, v1, v2, v3, v4]

/-- The three observables, each with the overlap integrals and capture rate of its own nucleus. -/
theorem C118_registry (d : Inp) : (registry d).map (·.1) = ["CR(mu->e, Au)", "CR(mu->e, Al)", "CR(mu->e, Ti)"] ∧ ((registry d).map (·.1)).Nodup
    ∧ ∀ nucl ∈ ["Au", "Al", "Ti"], (registry d).lookup ("CR(mu->e, " ++ nucl ++ ")") = some (crMue d nucl) := by
  refine ⟨rfl, by show ["CR(mu->e, Au)", "CR(mu->e, Al)", "CR(mu->e, Ti)"].Nodup; decide, ?_⟩
  intro n hn
  simp only [List.mem_cons, List.not_mem_nil, or_false] at hn
  rcases hn with rfl | rfl | rfl <;> rfl

/-- A case meeting the hypotheses with a non-zero rate: unit parameters and only the dipole. (Specification.) -/
noncomputable def ref : Inp := { par := fun _ => 1, wc := fun n => if n = "Cgamma_mue" then 2 else 0, getMu := fun _ => 1, getMd := fun _ => 1, getMs := fun _ => 1, alphaE := fun _ => 1 }
example : crMue ref "Al" = .ok 1 := by
  rw [C118_value ref "Al" (by norm_num [ref]) (by norm_num [ref]) (by norm_num [ref]) (by norm_num [ref])]
  simp [rate, ampL, ampR, amp, ref]
  norm_num

/-! ## Lepton g−2 -/

/-- The lepton of an observable with its scale key and EFT. (Specification.) -/
def gTable : List (String × String × String) := [("e", "e g-2", "WET-3"), ("mu", "mudecays", "WET-3"), ("tau", "tau g-2", "WET")]

/-- Every registered g−2 observable is `a_SM + (m² GF/(√2 π²)) Re C7` for its own lepton, scale and EFT; a missing scale
in the configuration is a `KeyError`. -/
theorem C119_value (d : GInp) (l k eft : String) (h : (l, k, eft) ∈ gTable) :
    ∃ o, (gRegistry d).lookup ("a_" ++ l) = some o
      ∧ (∀ s, d.scale k = some s → o = .ok (d.par ("a_" ++ l ++ " SM") + d.par ("m_" ++ l) ^ 2 * d.par "GF" / (Real.sqrt 2 * Real.pi ^ 2) * (d.wc s eft ("C7_" ++ l ++ l)).re))
      ∧ (d.scale k = none → o = .error .keyError) := by
  have A : ∀ s, al d l eft s = d.par ("a_" ++ l ++ " SM") + d.par ("m_" ++ l) ^ 2 * d.par "GF" / (Real.sqrt 2 * Real.pi ^ 2) * (d.wc s eft ("C7_" ++ l ++ l)).re := by
    intro s; simp only [al, div_div]
  simp only [gTable, List.mem_cons, List.not_mem_nil, or_false, Prod.mk.injEq] at h
  rcases h with ⟨rfl, rfl, rfl⟩ | ⟨rfl, rfl, rfl⟩ | ⟨rfl, rfl, rfl⟩
  · refine ⟨ae d, rfl, fun s hs => ?_, fun hs => ?_⟩
    · simp only [ae, GInp.getScale, hs, Bind.bind, Except.bind, pure, Except.pure, A]
    · simp only [ae, GInp.getScale, hs, Bind.bind, Except.bind]
  · refine ⟨amu d, rfl, fun s hs => ?_, fun hs => ?_⟩
    · simp only [amu, GInp.getScale, hs, Bind.bind, Except.bind, pure, Except.pure, A]
    · simp only [amu, GInp.getScale, hs, Bind.bind, Except.bind]
  · refine ⟨atau d, rfl, fun s hs => ?_, fun hs => ?_⟩
    · simp only [atau, GInp.getScale, hs, Bind.bind, Except.bind, pure, Except.pure, A]
    · simp only [atau, GInp.getScale, hs, Bind.bind, Except.bind]

/-- Consequences of the formula for a user: the SM value without new physics; imaginary dipoles (EDMs) do not move g−2;
contributions add; the shift has the sign of `Re C7`. -/
theorem C119_shift (d : GInp) (l eft : String) (s : ℝ) (w1 w2 : ℝ → String → String → ℂ) :
    ((w1 s eft ("C7_" ++ l ++ l)).re = 0 → al { d with wc := w1 } l eft s = d.par ("a_" ++ l ++ " SM"))
    ∧ al { d with wc := fun a b c => w1 a b c + w2 a b c } l eft s - d.par ("a_" ++ l ++ " SM")
        = (al { d with wc := w1 } l eft s - d.par ("a_" ++ l ++ " SM")) + (al { d with wc := w2 } l eft s - d.par ("a_" ++ l ++ " SM"))
    ∧ ((w1 s eft ("C7_" ++ l ++ l)).re = (w2 s eft ("C7_" ++ l ++ l)).re → al { d with wc := w1 } l eft s = al { d with wc := w2 } l eft s)
    ∧ (0 < d.par "GF" → d.par ("m_" ++ l) ≠ 0 → (d.par ("a_" ++ l ++ " SM") < al { d with wc := w1 } l eft s ↔ 0 < (w1 s eft ("C7_" ++ l ++ l)).re)) := by
  refine ⟨fun h => by simp [al, h], by simp only [al, Complex.add_re]; ring, fun h => by simp only [al, h], fun hG hm => ?_⟩
  have hp : 0 < d.par ("m_" ++ l) ^ 2 * d.par "GF" / Real.sqrt 2 / Real.pi ^ 2 := by
    have : 0 < d.par ("m_" ++ l) ^ 2 := by positivity
    have := Real.sqrt_pos.mpr (show (0:ℝ) < 2 by norm_num)
    have := Real.pi_pos
    positivity
  simp only [al]
  constructor
  · intro h
    by_contra hc
    have := mul_nonpos_of_nonneg_of_nonpos hp.le (not_lt.mp hc)
    linarith
  · intro h; have := mul_pos hp h; linarith

/-- Naive mass scaling: with the same coefficient, the shifts of two leptons are in the ratio of the squared masses. -/
theorem C119_mass_scaling (d : GInp) (l l' eft eft' : String) (s s' : ℝ)
    (h : (d.wc s eft ("C7_" ++ l ++ l)).re = (d.wc s' eft' ("C7_" ++ l' ++ l')).re) :
    d.par ("m_" ++ l') ^ 2 * (al d l eft s - d.par ("a_" ++ l ++ " SM")) = d.par ("m_" ++ l) ^ 2 * (al d l' eft' s' - d.par ("a_" ++ l' ++ " SM")) := by
  simp only [al, h]; ring
example : ∃ d : GInp, (gRegistry d).lookup "a_mu" = some (.ok (1 + 1 / (Real.sqrt 2 * Real.pi ^ 2) * 3)) := by
  refine ⟨⟨fun _ => 1, fun _ => some 2, fun _ _ _ => 3⟩, ?_⟩
  obtain ⟨o, h1, h2, _⟩ := C119_value ⟨fun _ => 1, fun _ => some 2, fun _ _ _ => 3⟩ "mu" "mudecays" "WET-3" (by simp [gTable])
  have h3 := h2 2 rfl
  rw [h3] at h1
  simp only [one_pow, mul_one, Complex.re_ofNat] at h1
  exact h1

/-! ## Neutrino tridents -/

/-- The trident ratio in terms of the left- and right-handed muon currents: the couplings of each final-state neutrino
are `L ± R`; only the muon neutrino interferes with the Standard Model. (Specification.) -/
noncomputable def tri (s : ℝ) (Lm Rm Le Re Lt Rt : ℂ) : ℝ :=
  (‖(1 / 2 : ℂ) - Lm + Rm‖ ^ 2 + ‖(1 / 2 : ℂ) + 2 * s - Lm - Rm‖ ^ 2 + 2 * (‖Le‖ ^ 2 + ‖Re‖ ^ 2) + 2 * (‖Lt‖ ^ 2 + ‖Rt‖ ^ 2))
    / ((1 / 2) ^ 2 + (1 / 2 + 2 * s) ^ 2)

theorem par_law (a b : ℂ) : ‖-a + b‖ ^ 2 + ‖-a - b‖ ^ 2 = 2 * (‖a‖ ^ 2 + ‖b‖ ^ 2) := by
  simp only [Quarkonium.nsq, add_re, add_im, sub_re, sub_im, neg_re, neg_im]; ring

/-- `R_trident` never raises, and equals that formula. -/
theorem C119_trident_value (s : ℝ) (w : String → ℂ) :
    trident s w = .ok (tri s (w "CVLL_numunumumumu") (w "CVLR_numunumumumu") (w "CVLL_nuenumumumu") (w "CVLR_nuenumumumu") (w "CVLL_numunutaumumu") (w "CVLR_numunutaumumu")) := by
  have hp : (0:ℝ) < |(1 / 2 : ℝ)| ^ 2 + |1 / 2 + 2 * s| ^ 2 := by
    have : (0:ℝ) < |(1 / 2 : ℝ)| ^ 2 := by norm_num
    positivity
  simp only [trident, Mixing.pyDiv_ne hp.ne', tri]
  congr 1
  rw [sq_abs, sq_abs]
  congr 1
  have e := par_law (w "CVLL_nuenumumumu") (w "CVLR_nuenumumumu")
  have t := par_law (w "CVLL_numunutaumumu") (w "CVLR_numunutaumumu")
  have m1 : ((1 / 2 : ℝ) : ℂ) + (-w "CVLL_numunumumumu" + w "CVLR_numunumumumu") = (1 / 2 : ℂ) - w "CVLL_numunumumumu" + w "CVLR_numunumumumu" := by
    push_cast; ring
  have m2 : ((1 / 2 + 2 * s : ℝ) : ℂ) + (-w "CVLR_numunumumumu" - w "CVLL_numunumumumu") = (1 / 2 : ℂ) + 2 * s - w "CVLL_numunumumumu" - w "CVLR_numunumumumu" := by
    push_cast; ring
  rw [m1, m2]
  linarith

/-- The ratio is non-negative, one in the Standard Model, at least one when only neutrino-flavour-changing couplings are
present (no interference), and zero exactly for `L = 1/2 + s²_W`, `R = s²_W` with no flavour change. -/
theorem C119_trident (s : ℝ) (Lm Rm Le Re Lt Rt : ℂ) :
    0 ≤ tri s Lm Rm Le Re Lt Rt ∧ tri s 0 0 0 0 0 0 = 1 ∧ 1 ≤ tri s 0 0 Le Re Lt Rt
    ∧ (tri s 0 0 Le Re Lt Rt = 1 ↔ Le = 0 ∧ Re = 0 ∧ Lt = 0 ∧ Rt = 0)
    ∧ (tri s Lm Rm Le Re Lt Rt = 0 ↔ Lm = 1 / 2 + s ∧ Rm = s ∧ Le = 0 ∧ Re = 0 ∧ Lt = 0 ∧ Rt = 0)
    ∧ tri s Lm Rm Lt Rt Le Re = tri s Lm Rm Le Re Lt Rt ∧ tri s Lm Rm Re Le Lt Rt = tri s Lm Rm Le Re Lt Rt := by
  have hp : (0:ℝ) < (1 / 2) ^ 2 + (1 / 2 + 2 * s) ^ 2 := by positivity
  have hz : ‖(1 / 2 : ℂ)‖ ^ 2 + ‖(1 / 2 : ℂ) + 2 * s‖ ^ 2 = (1 / 2) ^ 2 + (1 / 2 + 2 * s) ^ 2 := by
    have : (1 / 2 : ℂ) + 2 * s = ((1 / 2 + 2 * s : ℝ) : ℂ) := by push_cast; ring
    rw [this, Complex.norm_real, Real.norm_eq_abs, sq_abs]; norm_num
  have sm : ∀ Le Re Lt Rt : ℂ, tri s 0 0 Le Re Lt Rt = 1 + (2 * (‖Le‖ ^ 2 + ‖Re‖ ^ 2) + 2 * (‖Lt‖ ^ 2 + ‖Rt‖ ^ 2)) / ((1 / 2) ^ 2 + (1 / 2 + 2 * s) ^ 2) := by
    intro Le Re Lt Rt
    simp only [tri, sub_zero, add_zero]
    rw [hz]; field_simp; ring
  have nz : ∀ z : ℂ, ‖z‖ ^ 2 = 0 → z = 0 := fun z h => by simpa using h
  refine ⟨?_, ?_, ?_, ?_, ?_, ?_, ?_⟩
  · unfold tri; positivity
  · rw [sm]; simp
  · rw [sm]; have : 0 ≤ (2 * (‖Le‖ ^ 2 + ‖Re‖ ^ 2) + 2 * (‖Lt‖ ^ 2 + ‖Rt‖ ^ 2)) / ((1 / 2) ^ 2 + (1 / 2 + 2 * s) ^ 2) := by positivity
    linarith
  · rw [sm]; constructor
    · intro h
      have h0 : (2 * (‖Le‖ ^ 2 + ‖Re‖ ^ 2) + 2 * (‖Lt‖ ^ 2 + ‖Rt‖ ^ 2)) / ((1 / 2) ^ 2 + (1 / 2 + 2 * s) ^ 2) = 0 := by linarith
      rcases div_eq_zero_iff.mp h0 with h0 | h0
      · have := sq_nonneg ‖Le‖; have := sq_nonneg ‖Re‖; have := sq_nonneg ‖Lt‖; have := sq_nonneg ‖Rt‖
        exact ⟨nz _ (by linarith), nz _ (by linarith), nz _ (by linarith), nz _ (by linarith)⟩
      · exact absurd h0 hp.ne'
    · rintro ⟨rfl, rfl, rfl, rfl⟩; simp
  · constructor
    · intro h
      unfold tri at h
      rcases div_eq_zero_iff.mp h with h0 | h0
      · have a1 := sq_nonneg ‖Le‖; have a2 := sq_nonneg ‖Re‖; have a3 := sq_nonneg ‖Lt‖; have a4 := sq_nonneg ‖Rt‖
        have b1 := sq_nonneg ‖(1 / 2 : ℂ) - Lm + Rm‖; have b2 := sq_nonneg ‖(1 / 2 : ℂ) + 2 * s - Lm - Rm‖
        have c1 := nz _ (show ‖(1 / 2 : ℂ) - Lm + Rm‖ ^ 2 = 0 by linarith)
        have c2 := nz _ (show ‖(1 / 2 : ℂ) + 2 * s - Lm - Rm‖ ^ 2 = 0 by linarith)
        exact ⟨by linear_combination (-1 / 2 : ℂ) * c1 + (-1 / 2 : ℂ) * c2, by linear_combination (1 / 2 : ℂ) * c1 + (-1 / 2 : ℂ) * c2,
          nz _ (by linarith), nz _ (by linarith), nz _ (by linarith), nz _ (by linarith)⟩
      · exact absurd h0 hp.ne'
    · rintro ⟨rfl, rfl, rfl, rfl, rfl, rfl⟩
      simp only [tri]
      have e1 : (1 / 2 : ℂ) - (1 / 2 + s) + s = 0 := by ring
      have e2 : (1 / 2 : ℂ) + 2 * s - (1 / 2 + s) - s = 0 := by ring
      rw [e1, e2]; simp
  · simp only [tri]; ring
  · simp only [tri]; ring

end Verif.MuE
