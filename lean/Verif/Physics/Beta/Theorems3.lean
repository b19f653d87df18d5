import Verif.Physics.Beta.Theorems2
/-!
# C109: Standard Model relations, lifetimes, nuclei
-/
set_option linter.unusedVariables false
set_option linter.unusedSimpArgs false
set_option maxRecDepth 4000
namespace Verif.Beta
open Verif.Py Verif.Running Verif.Bll
local notation "conj" => starRingEnd ℂ

/-- **C109**: the antineutrino asymmetry of the neutron is bounded by the rate at the same electron energy. -/
theorem C109_bounds_B (C : Coup) (p : Par) (β : ℝ) (hβ : |β| ≤ 1) (b B : ℝ) (hb : bXi C 1 (Real.sqrt 3) p.alpha 0 1 = .ok b)
    (hB : bigBXi C 1 (Real.sqrt 3) (1 / 2) (1 / 2) (Real.sqrt (1 - β ^ 2)) 1 = .ok B) : |B| ≤ xi C 1 (Real.sqrt 3) + b * Real.sqrt (1 - β ^ 2) := by
  have hA := (neutron_num C p 0).2.2.2.1
  have h1 := C109_neutron_positive C p β hβ ![0, 0, 1] ![1, 0, 0] ![0, 0, 1] (by simp [dot3]) (by simp [dot3]) (by simp [dot3]) b _ B hb hA hB
  have h2 := C109_neutron_positive C p β hβ ![0, 0, -1] ![1, 0, 0] ![0, 0, 1] (by simp [dot3]) (by simp [dot3]) (by simp [dot3]) b _ B hb hA hB
  simp [dot3, crossProduct] at h1 h2
  rw [abs_le]; constructor <;> linarith

/-- **C109**: without scalar and tensor couplings and for a real ratio `λ = C_A / C_V` the coefficients of the neutron are the textbook ones, for every electron energy; `λ_AB` is `λ`, and the
two relations between `a`, `A`, `B` hold. -/
theorem C109_neutron_sm (V P : ℂ) (l m : ℝ) (p : Par) (hV : V ≠ 0) :
    let C : Coup := ⟨V, l * V, 0, P, 0⟩
    let a := (1 - l ^ 2) / (1 + 3 * l ^ 2)
    let A := -2 * l * (l + 1) / (1 + 3 * l ^ 2)
    let B := 2 * l * (l - 1) / (1 + 3 * l ^ 2)
    nCorr p C m "a" = .ok (some a) ∧ nCorr p C m "atilde" = .ok (some a) ∧ nCorr p C m "A" = .ok (some A) ∧ nCorr p C m "Atilde" = .ok (some A)
    ∧ nCorr p C m "B" = .ok (some B) ∧ nCorr p C m "Btilde" = .ok (some B)
    ∧ nCorr p C m "b" = .ok (some 0) ∧ nCorr p C m "D" = .ok (some 0) ∧ nCorr p C m "R" = .ok (some 0)
    ∧ (l ≠ 0 → nCorr p C m "lambdaAB" = .ok (some l)) ∧ (l = 0 → nCorr p C m "lambdaAB" = .error .zeroDivisionError)
    ∧ 1 + A = B + a ∧ a * B = A + A ^ 2 := by
  intro C a A B
  obtain ⟨e1, e2, e3, e4, e5, e6, e7⟩ := neutron_num C p m
  have hv : 0 < ‖V‖ ^ 2 := by positivity
  have hn : ‖C.A‖ ^ 2 = l ^ 2 * ‖V‖ ^ 2 := by simp only [C, norm_mul, Complex.norm_real, Real.norm_eq_abs, mul_pow, sq_abs]
  have hT : C.T = 0 := rfl
  have hS : C.S = 0 := rfl
  have hCV : C.V = V := rfl
  have hva : (C.V * conj C.A).re = l * ‖V‖ ^ 2 := by
    simp only [C, nsq, map_mul, Complex.mul_re, Complex.mul_im, Complex.conj_re, Complex.conj_im, Complex.ofReal_re, Complex.ofReal_im]; ring
  have hvi : (C.V * conj C.A).im = 0 := by
    simp only [C, map_mul, Complex.mul_re, Complex.mul_im, Complex.conj_re, Complex.conj_im, Complex.ofReal_re, Complex.ofReal_im]; ring
  simp only [hT, hS, hCV, hn, map_zero, mul_zero, zero_mul, Complex.zero_re, Complex.zero_im, norm_zero, ne_eq, OfNat.ofNat_ne_zero, not_false_eq_true, zero_pow, add_zero, sub_zero, zero_sub, zero_add] at e1 e2 e3 e4 e5 e6 e7
  rw [hCV] at hva hvi
  rw [hva] at e4 e5
  rw [hvi] at e6
  have hx : xi C 1 (Real.sqrt 3) ≠ 0 := by rw [e1]; positivity
  have hd : (1 + 3 * l ^ 2) ≠ 0 := by positivity
  have ra : na C = .ok a := by
    simp only [na, fa, Mixing.pyDiv_ne hx]; rw [e1, e2]; congr 1; simp only [a]; field_simp
  have rA : nA C = .ok A := by
    simp only [nA, fA, e4, Bind.bind, Except.bind, Mixing.pyDiv_ne hx]; rw [e1]; congr 1; simp only [A]; field_simp; ring
  have rB : nB C m = .ok B := by
    simp only [nB, fB, e5, Bind.bind, Except.bind, Mixing.pyDiv_ne hx]; rw [e1]; congr 1; simp only [B]; field_simp; ring
  have rb : nb p C = .ok 0 := by
    simp only [nb, fb, e3, Bind.bind, Except.bind, Mixing.pyDiv_ne hx, zero_div]
  have rD : nD C = .ok 0 := by
    simp only [nD, fD, Mixing.pyDiv_ne hx, e6]; simp
  have rR : nR C = .ok 0 := by
    simp only [nR, fR, e7, Bind.bind, Except.bind, Mixing.pyDiv_ne hx, zero_div]
  have one : ∀ x : ℝ, pyDiv x (1 + 0 * m) = .ok x := fun x => by rw [zero_mul, add_zero, Mixing.pyDiv_ne one_ne_zero, div_one]
  refine ⟨?_, ?_, ?_, ?_, ?_, ?_, ?_, ?_, ?_, fun h => ?_, fun h => ?_, ?_, ?_⟩
  · simp [nCorr, ra, Functor.map, Except.map]
  · simp [nCorr, ra, rb, Functor.map, Except.map, Bind.bind, Except.bind, pyDiv]
  · simp [nCorr, rA, Functor.map, Except.map]
  · simp [nCorr, rA, rb, Functor.map, Except.map, Bind.bind, Except.bind, pyDiv]
  · simp [nCorr, rB, Functor.map, Except.map]
  · simp [nCorr, rB, rb, Functor.map, Except.map, Bind.bind, Except.bind, pyDiv]
  · simp [nCorr, rb, Functor.map, Except.map]
  · simp [nCorr, rD, Functor.map, Except.map]
  · simp [nCorr, rR, Functor.map, Except.map]
  · have hs : A + B = -4 * l / (1 + 3 * l ^ 2) := by simp only [A, B]; field_simp; ring
    have h0 : A + B ≠ 0 := by rw [hs]; exact div_ne_zero (by simpa using h) hd
    have : (A - B) / (A + B) = l := by rw [hs]; simp only [A, B]; field_simp; ring
    have e : nCorr p C m "lambdaAB" = some <$> pyDiv (A - B) (A + B) := by simp [nCorr, rA, rB, Bind.bind, Except.bind]
    rw [e, Mixing.pyDiv_ne h0, this]; rfl
  · have h0 : A + B = 0 := by simp only [A, B, h]; ring
    have e : nCorr p C m "lambdaAB" = some <$> pyDiv (A - B) (A + B) := by simp [nCorr, rA, rB, Bind.bind, Except.bind]
    rw [e, h0, Mixing.pyDiv_zero]; rfl
  · simp only [a, A, B]; field_simp; ring
  · simp only [a, A, B]; field_simp; ring

/-- **C109**: the effective couplings: in the Standard Model `λ = -g_A` and `|C_V|² = 1 + Δ_R^V`; a right-handed current `ε` changes `λ` to `-g_A (1 - ε) / (1 + ε)`. -/
theorem C109_couplings (g : Charges) (hg : g.gV = 1) (c d e : ℝ) (hc : c ≠ 0) (hd : 0 ≤ 1 + d) :
    wcEff ⟨c, (e * Real.sqrt (1 + d) : ℝ), 0, 0, 0⟩ g c d = .ok ⟨((1 + e) * Real.sqrt (1 + d) : ℝ), (-g.gA * (1 - e) * Real.sqrt (1 + d) : ℝ), 0, 0, 0⟩ := by
  simp only [wcEff, pySqrt, if_neg (not_lt.2 hd), Bind.bind, Except.bind, Mixing.pyDiv_ne hc, hg, pure, Except.pure]
  have hc' : (c : ℂ) ≠ 0 := by exact_mod_cast hc
  congr 2 <;> push_cast <;> (try field_simp) <;> (try ring)

/-- Finding: the pseudoscalar charge is not the one of the partially conserved axial current, `g_P = g_A (m_p + m_n) / (m_u + m_d)`; the axial charge is added instead of multiplied. -/
theorem C109_pcac_witness : ∃ g, protonCharges 2 1 1 1 1 1 (1 / 2) (1 / 2) = .ok g ∧ g.gP = 4 ∧ g.gA * (1 + 1) / (1 / 2 + 1 / 2) = 4
    ∧ ∃ g', protonCharges 3 1 1 1 1 1 (1 / 2) (1 / 2) = .ok g' ∧ g'.gP = 5 ∧ g'.gA * (1 + 1) / (1 / 2 + 1 / 2) = 6 := by
  refine ⟨⟨1, 2, 1, 4, 0⟩, ?_, rfl, by norm_num, ⟨1, 3, 1, 5, 0⟩, ?_, rfl, by norm_num⟩ <;>
  · simp only [protonCharges, Mixing.pyDiv_ne (show (1 / 2 + 1 / 2 : ℝ) ≠ 0 by norm_num), Bind.bind, Except.bind, pure, Except.pure]
    norm_num

/-! ## Lifetimes -/

theorem pre_sq (GF : ℝ) (V : ℂ) : ‖((GF / Real.sqrt 2 : ℝ) : ℂ) * V‖ ^ 2 = GF ^ 2 * ‖V‖ ^ 2 / 2 := by
  rw [norm_mul, mul_pow, Complex.norm_real, Real.norm_eq_abs, sq_abs, div_pow, Real.sq_sqrt (by norm_num)]; ring

theorem nuclei_range : ∀ e ∈ nuclei, 0 < e.2.1 ∧ e.2.1 ≤ 37 ∧ 0 < e.2.2 ∧ e.2.2 < 1 := by
  intro e he
  simp only [nuclei, List.mem_cons, List.not_mem_nil, or_false] at he
  rcases he with rfl | rfl | rfl | rfl | rfl | rfl | rfl | rfl | rfl | rfl | rfl | rfl | rfl | rfl <;> norm_num

theorem lookup_mem {α : Type} {l : List (String × α)} {k : String} {v : α} (h : l.lookup k = some v) : (k, v) ∈ l := by
  induction l with
  | nil => cases h
  | cons e l ih =>
    obtain ⟨a, b⟩ := e
    rw [List.lookup_cons] at h
    by_cases hk : k == a
    · rw [hk] at h; simp only [Option.some.injEq] at h; rw [beq_iff_eq] at hk; subst hk; subst h; exact List.mem_cons_self
    · rw [Bool.not_eq_true] at hk; rw [hk] at h; exact List.mem_cons_of_mem _ (ih h)

/-- **C109**: the corrected `Ft` value of a superallowed decay is `π³ ln 2 / (m_e⁵ G_F² |V_ud|² (|C_V|² + |C_S|² - 2γ ⟨m_e/E⟩ Re C_V C_S*))` times the correction factor, and no exception occurs, for every
nucleus in the table. -/
theorem C109_ft (p : Par) (C : Coup) (name : String) (Z mE q : ℝ) (hn : nuclei.lookup name = some (Z, mE)) (hq : qEC.lookup name = some q)
    (hal : |p.alpha| ≤ 1 / 37) (hm : p.me ≠ 0) (hG : p.GF ≠ 0) (hV : p.Vud ≠ 0) (hC : C.V ≠ 0 ∨ C.S ≠ 0) :
    0 < ‖C.V‖ ^ 2 + ‖C.S‖ ^ 2 - 2 * Real.sqrt (1 - p.alpha ^ 2 * Z ^ 2) * mE * (C.V * conj C.S).re
    ∧ ftSuper p C name = .ok ((1 + p.ddRp * Z ^ 2 + p.ddNSA + p.ddNSE * q) * (Real.pi ^ 3 * Real.log 2)
      / (p.me ^ 5 * p.GF ^ 2 * ‖p.Vud‖ ^ 2 * (‖C.V‖ ^ 2 + ‖C.S‖ ^ 2 - 2 * Real.sqrt (1 - p.alpha ^ 2 * Z ^ 2) * mE * (C.V * conj C.S).re))) := by
  obtain ⟨hZ0, hZ, hE0, hE⟩ := nuclei_range _ (lookup_mem hn)
  simp only at hZ0 hZ hE0 hE
  have hg : 0 ≤ 1 - p.alpha ^ 2 * Z ^ 2 := by
    have h1 : |p.alpha| * Z ≤ 1 := by
      calc |p.alpha| * Z ≤ 1 / 37 * 37 := mul_le_mul hal hZ hZ0.le (by norm_num)
        _ = 1 := by norm_num
    have h2 : 0 ≤ |p.alpha| * Z := by positivity
    have : p.alpha ^ 2 * Z ^ 2 = (|p.alpha| * Z) ^ 2 := by rw [mul_pow, sq_abs]
    rw [this]; nlinarith
  set g := Real.sqrt (1 - p.alpha ^ 2 * Z ^ 2) with hgd
  have hg0 : 0 ≤ g := Real.sqrt_nonneg _
  have hg1 : g ≤ 1 := by
    rw [hgd]; apply Real.sqrt_le_one.2 ; nlinarith [mul_self_nonneg (p.alpha * Z)]
  have h2 : |Real.sqrt 2| ^ 2 = 2 := by rw [sq_abs, Real.sq_sqrt (by norm_num)]
  set r := (C.V * conj C.S).re with hr
  have hrle := re_le C.V C.S
  set n := ‖C.V‖ ^ 2 + ‖C.S‖ ^ 2 with hnn
  have hn0 : 0 < n := by
    rcases hC with h | h
    · have : 0 < ‖C.V‖ := norm_pos_iff.2 h
      positivity
    · have : 0 < ‖C.S‖ := norm_pos_iff.2 h
      positivity
  have hrn : |2 * r| ≤ n := by
    rw [abs_mul, abs_two]
    have := sq_nonneg (‖C.V‖ - ‖C.S‖)
    rw [hnn]; nlinarith [hrle]
  have hgm : |g * mE * (2 * r)| < n := by
    rw [abs_mul, abs_of_nonneg (by positivity)]
    have : g * mE < 1 := by nlinarith
    have h3 : 0 ≤ g * mE := by positivity
    rcases eq_or_lt_of_le (abs_nonneg (2 * r)) with h | h
    · rw [← h, mul_zero]; exact hn0
    · calc g * mE * |2 * r| < 1 * |2 * r| := mul_lt_mul_of_pos_right this h
        _ ≤ n := by rw [one_mul]; exact hrn
  have hden : 0 < n - 2 * g * mE * r := by
    have := (abs_lt.1 hgm).2; linarith
  refine ⟨hden, ?_⟩
  have hxi : xi C (Real.sqrt 2) 0 = 4 * n := by simp only [xi, h2, abs_zero]; ring
  have hx0 : xi C (Real.sqrt 2) 0 ≠ 0 := by rw [hxi]; positivity
  have hb : fb C (Real.sqrt 2) 0 p.alpha Z (-1) = .ok (-(2 * g * r) / n) := by
    simp only [fb, bXi, pySqrt, if_neg (not_lt.2 hg), Bind.bind, Except.bind, pure, Except.pure, Mixing.pyDiv_ne hx0, h2, ← hgd, ← hr]
    rw [hxi]; congr 1; simp only [abs_zero]; field_simp; ring
  have hf : 1 + -(2 * g * r) / n * mE = (n - 2 * g * mE * r) / n := by field_simp; ring
  have hf0 : 1 + -(2 * g * r) / n * mE ≠ 0 := by rw [hf]; positivity
  have hp0 : ‖((p.GF / Real.sqrt 2 : ℝ) : ℂ) * p.Vud‖ ^ 2 ≠ 0 := by
    rw [pre_sq]
    have : 0 < ‖p.Vud‖ := norm_pos_iff.2 hV
    positivity
  simp only [ftSuper, hn, hq, hb, fK, Mixing.pyDiv_ne (pow_ne_zero 5 hm), Mixing.pyDiv_ne hx0, Bind.bind, Except.bind, Mixing.pyDiv_ne hf0, Mixing.pyDiv_ne hp0]
  rw [pre_sq, hf, hxi]
  congr 1
  have : ‖p.Vud‖ ≠ 0 := norm_ne_zero_iff.2 hV
  have := hden.ne'
  field_simp
  ring

/-- **C109**: the 14 nuclei of both tables agree, so every `Ft` value is defined; without scalar coupling and with the nuisance parameters at zero all `Ft` values are equal. -/
theorem C109_ft_universal (p : Par) (C : Coup) (hal : |p.alpha| ≤ 1 / 37) (hm : p.me ≠ 0) (hG : p.GF ≠ 0) (hV : p.Vud ≠ 0) (hC : C.V ≠ 0) (hS : C.S = 0)
    (h1 : p.ddRp = 0) (h2 : p.ddNSA = 0) (h3 : p.ddNSE = 0) :
    nuclei.map Prod.fst = qEC.map Prod.fst ∧ (nuclei.map Prod.fst).Nodup
    ∧ ∀ name ∈ nuclei.map Prod.fst, ftSuper p C name = .ok (Real.pi ^ 3 * Real.log 2 / (p.me ^ 5 * p.GF ^ 2 * ‖p.Vud‖ ^ 2 * ‖C.V‖ ^ 2)) := by
  refine ⟨by simp [nuclei, qEC], by simp [nuclei], fun name hname => ?_⟩
  have : ∃ Z mE q, nuclei.lookup name = some (Z, mE) ∧ qEC.lookup name = some q := by
    simp only [nuclei, List.map_cons, List.map_nil, List.mem_cons, List.not_mem_nil, or_false] at hname
    rcases hname with rfl | rfl | rfl | rfl | rfl | rfl | rfl | rfl | rfl | rfl | rfl | rfl | rfl | rfl <;> exact ⟨_, _, _, rfl, rfl⟩
  obtain ⟨Z, mE, q, hn, hq⟩ := this
  have := (C109_ft p C name Z mE q hn hq hal hm hG hV (.inl hC)).2
  rw [this, h1, h2, h3, hS]
  simp

/-- **C109**: the neutron lifetime, without exception, for `⟨m_e/E⟩ < 1`: `2π³ / (m_e⁵ G_F² |V_ud|² f_n (1 + δ') (|C_V|² + |C_S|² + 3(|C_A|² + |C_T|²) + 2⟨m_e/E⟩ Re(C_V C_S* + 3 C_A C_T*)))`. -/
theorem C109_tau (p : Par) (C : Coup) (mE : ℝ) (hE0 : 0 ≤ mE) (hE : mE < 1) (hm : p.me ≠ 0) (hG : p.GF ≠ 0) (hV : p.Vud ≠ 0) (hf : p.fn ≠ 0) (hR : 1 + p.Rp ≠ 0)
    (hC : C.V ≠ 0 ∨ C.S ≠ 0 ∨ C.A ≠ 0 ∨ C.T ≠ 0) :
    let N := ‖C.V‖ ^ 2 + ‖C.S‖ ^ 2 + 3 * (‖C.A‖ ^ 2 + ‖C.T‖ ^ 2) + 2 * mE * ((C.V * conj C.S).re + 3 * (C.A * conj C.T).re)
    0 < N ∧ nTau p C mE = .ok (2 * Real.pi ^ 3 / (p.me ^ 5 * p.GF ^ 2 * ‖p.Vud‖ ^ 2 * p.fn * (1 + p.Rp) * N)) := by
  intro N
  obtain ⟨e1, -, e3, -⟩ := neutron_num C p mE
  set x := ‖C.V‖ ^ 2 + ‖C.S‖ ^ 2 + 3 * (‖C.A‖ ^ 2 + ‖C.T‖ ^ 2) with hx
  set y := (C.V * conj C.S).re + 3 * (C.A * conj C.T).re with hy
  have hx0 : 0 < x := by
    rcases hC with h | h | h | h <;> have : 0 < ‖_‖ := norm_pos_iff.2 h <;> positivity
  have hyx : |2 * y| ≤ x := by
    have b1 := abs_le.1 (re_le C.V C.S)
    have b2 := abs_le.1 (re_le C.A C.T)
    rw [hx, hy, abs_le]
    constructor <;> linarith [sq_nonneg (‖C.V‖ - ‖C.S‖), sq_nonneg (‖C.A‖ - ‖C.T‖)]
  have hN : 0 < N := by
    have : |mE * (2 * y)| < x := by
      rw [abs_mul, abs_of_nonneg hE0]
      rcases eq_or_lt_of_le (abs_nonneg (2 * y)) with h | h
      · rw [← h, mul_zero]; exact hx0
      · calc mE * |2 * y| < 1 * |2 * y| := mul_lt_mul_of_pos_right hE h
          _ ≤ x := by rw [one_mul]; exact hyx
    have := (abs_lt.1 this).1
    simp only [N]; linarith
  refine ⟨hN, ?_⟩
  have hxi : xi C 1 (Real.sqrt 3) ≠ 0 := by rw [e1]; positivity
  have hb : nb p C = .ok (2 * y / x) := by
    simp only [nb, fb, e3, Bind.bind, Except.bind, Mixing.pyDiv_ne hxi]; rw [e1]; congr 1; field_simp; ring
  have hfe : 1 + 2 * y / x * mE = N / x := by simp only [N]; field_simp; rw [hx, hy]; ring
  have hf0 : 1 + 2 * y / x * mE ≠ 0 := by rw [hfe]; positivity
  have hp0 : ‖((p.GF / Real.sqrt 2 : ℝ) : ℂ) * p.Vud‖ ^ 2 ≠ 0 := by
    rw [pre_sq]
    have : 0 < ‖p.Vud‖ := norm_pos_iff.2 hV
    positivity
  have hl : Real.log 2 ≠ 0 := (Real.log_pos (by norm_num)).ne'
  simp only [nTau, hb, fK, Mixing.pyDiv_ne (pow_ne_zero 5 hm), Mixing.pyDiv_ne hxi, Bind.bind, Except.bind, Mixing.pyDiv_ne hf0, Mixing.pyDiv_ne hp0, Mixing.pyDiv_ne hl,
    Mixing.pyDiv_ne hf, Mixing.pyDiv_ne hR]
  rw [pre_sq, hfe, e1]
  congr 1
  have : ‖p.Vud‖ ≠ 0 := norm_ne_zero_iff.2 hV
  have := hN.ne'
  field_simp

/-- **C109**: `V_ud` and `G_F` drop out of the comparison of neutron and superallowed decays in the Standard Model: `ln 2 · f_n (1 + δ') τ_n (1 + 3λ²) = 2 Ft`. -/
theorem C109_neutron_ft (p : Par) (V P : ℂ) (l mE t f : ℝ) (name : String) (hn : name ∈ nuclei.map Prod.fst) (hE0 : 0 ≤ mE) (hE : mE < 1) (hal : |p.alpha| ≤ 1 / 37)
    (hm : p.me ≠ 0) (hG : p.GF ≠ 0) (hV : p.Vud ≠ 0) (hf : p.fn ≠ 0) (hR : 1 + p.Rp ≠ 0) (hVc : V ≠ 0) (h1 : p.ddRp = 0) (h2 : p.ddNSA = 0) (h3 : p.ddNSE = 0)
    (ht : nTau p ⟨V, l * V, 0, P, 0⟩ mE = .ok t) (hft : ftSuper p ⟨V, l * V, 0, P, 0⟩ name = .ok f) :
    Real.log 2 * (p.fn * (1 + p.Rp) * t) * (1 + 3 * l ^ 2) = 2 * f := by
  have e1 := (C109_ft_universal p ⟨V, l * V, 0, P, 0⟩ hal hm hG hV hVc rfl h1 h2 h3).2.2 name hn
  have e2 := (C109_tau p ⟨V, l * V, 0, P, 0⟩ mE hE0 hE hm hG hV hf hR (.inl hVc)).2
  rw [e1] at hft; rw [e2] at ht
  cases hft; cases ht
  have hv : ‖V‖ ≠ 0 := norm_ne_zero_iff.2 hVc
  have hu : ‖p.Vud‖ ≠ 0 := norm_ne_zero_iff.2 hV
  have hd : (1 + 3 * l ^ 2) ≠ 0 := by positivity
  have : ‖V‖ ^ 2 + ‖(0 : ℂ)‖ ^ 2 + 3 * (‖(l : ℂ) * V‖ ^ 2 + ‖(0 : ℂ)‖ ^ 2) + 2 * mE * ((V * conj (0 : ℂ)).re + 3 * ((l : ℂ) * V * conj (0 : ℂ)).re) = ‖V‖ ^ 2 * (1 + 3 * l ^ 2) := by
    simp only [map_zero, mul_zero, Complex.zero_re, norm_zero, norm_mul, Complex.norm_real, Real.norm_eq_abs, mul_pow, sq_abs]; ring
  simp only [this]
  field_simp

/-! ## Elements -/

/-- **C109**: `symbol` and `Z` are inverse to each other on the whole table; outside a `KeyError` is raised. -/
theorem C109_elements : (∀ n : ℤ, 0 ≤ n → n ≤ 118 → ∃ s, symbol n = .ok s ∧ elemZ s = .ok n) ∧ (∀ s n, elemZ s = .ok n → symbol n = .ok s)
    ∧ ∀ n : ℤ, n < 0 ∨ 118 < n → symbol n = .error .keyError := by
  have hnd : table.Nodup := by decide
  have hlen : table.length = 119 := by decide
  refine ⟨fun n h0 h1 => ?_, fun s n h => ?_, fun n h => ?_⟩
  · have hlt : n.toNat < table.length := by rw [hlen]; omega
    refine ⟨table[n.toNat], ?_, ?_⟩
    · unfold symbol; rw [if_neg (by omega), List.getElem?_eq_getElem hlt]
    · unfold elemZ
      have : table.idxOf? table[n.toNat] = some n.toNat := by
        rw [List.idxOf?_eq_some_iff]
        refine ⟨hlt, by simp, fun j hj => ?_⟩
        intro he
        have := (List.Nodup.getElem_inj_iff hnd).1 he
        omega
      rw [this]
      show Except.ok ((n.toNat : ℤ)) = _
      rw [Int.toNat_of_nonneg h0]
  · unfold elemZ at h
    cases hi : table.idxOf? s with
    | none => rw [hi] at h; cases h
    | some k =>
      rw [hi] at h
      cases h
      obtain ⟨hk, he, -⟩ := List.idxOf?_eq_some_iff.1 hi
      unfold symbol
      rw [if_neg (by omega), Int.toNat_natCast, List.getElem?_eq_getElem hk]
      simp [he]
  · unfold symbol
    by_cases h0 : n < 0
    · rw [if_pos h0]
    · rw [if_neg h0, List.getElem?_eq_none (by rw [hlen]; omega)]

/-- **C109**: the charge of every nucleus in the table of superallowed decays is that of its element, and the daughter has the same mass number and a charge lower by one. -/
theorem C109_daughters :
    (nuclei.map fun e => daughter e.1)
      = [.ok "10B", .ok "14N", .ok "22Na", .ok "26Mg", .ok "34S", .ok "34Cl", .ok "38Ar", .ok "38K", .ok "42Ca", .ok "46Ti", .ok "50Cr", .ok "54Fe", .ok "62Zn", .ok "74Kr"]
    ∧ ∀ e ∈ nuclei, ∃ n : ℤ, elemZ (String.ofList (e.1.toList.dropWhile fun c => !c.isUpper)) = .ok n ∧ (n : ℝ) = e.2.1 := by
  refine ⟨?_, fun e he => ?_⟩
  · simp only [nuclei, List.map_cons, List.map_nil]
    rfl
  · simp only [nuclei, List.mem_cons, List.not_mem_nil, or_false] at he
    rcases he with rfl | rfl | rfl | rfl | rfl | rfl | rfl | rfl | rfl | rfl | rfl | rfl | rfl | rfl <;> exact ⟨_, rfl, by norm_num⟩

/-- The hypotheses on parameters and couplings are met by realistic values. -/
theorem C109_nonvacuous : ∃ (p : Par) (V P : ℂ) (l t f : ℝ), l ≠ 0 ∧ nTau p ⟨V, l * V, 0, P, 0⟩ (1 / 2) = .ok t ∧ ftSuper p ⟨V, l * V, 0, P, 0⟩ "10C" = .ok f ∧ |p.alpha| ≤ 1 / 37 ∧ 0 < t ∧ 0 < f := by
  have h1 := (C109_tau ⟨1, 1 / 137, 1, 1, 0, 0, 0, 1, 0⟩ ⟨1, ((-1 : ℝ) : ℂ) * 1, 0, 0, 0⟩ (1 / 2) (by norm_num) (by norm_num) (by norm_num) (by norm_num) (by norm_num) (by norm_num) (by norm_num)
    (.inl one_ne_zero)).2
  have h2 := (C109_ft_universal ⟨1, 1 / 137, 1, 1, 0, 0, 0, 1, 0⟩ ⟨1, ((-1 : ℝ) : ℂ) * 1, 0, 0, 0⟩ (by norm_num [abs_of_pos]) (by norm_num) (by norm_num) (by norm_num) (by norm_num) rfl rfl rfl rfl).2.2
    "10C" (by simp [nuclei])
  have hl : 0 < Real.log 2 := Real.log_pos (by norm_num)
  have hp := Real.pi_pos
  refine ⟨_, _, _, -1, _, _, by norm_num, h1, h2, by norm_num [abs_of_pos], ?_, ?_⟩
  · simp; positivity
  · simp; positivity

end Verif.Beta
