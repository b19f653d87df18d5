import Verif.Physics.Scattering.EeWW
import Mathlib.Data.Real.Basic
import Mathlib.Tactic.Linarith
import Mathlib.Tactic.NormNum
import Mathlib.Tactic.Ring
import Mathlib.Tactic.FieldSimp
import Mathlib.Tactic.FinCases
/-!
# What a user relies on for `R(ee->WW)` and `<dR/dtheta>(ee->WW)`
-/
set_option linter.unusedVariables false
set_option linter.unusedSimpArgs false
namespace Verif.EeWW
open Verif.Py

/-! ## Specification -/

/-- The ten centre-of-mass energies of the LEP2 measurement of the total rate, in GeV. (Specification.) -/
def Energies : List ℚ := [161.3, 172.1, 182.7, 188.6, 191.6, 195.5, 199.5, 201.6, 204.9, 206.6]

/-- The four averaged energies of the LEP2 measurement of the angular distribution, in GeV. (Specification.) -/
def DiffEnergies : List ℚ := [182.66, 189.09, 198.38, 205.92]

/-- The edges of the ten bins in the cosine of the polar angle. (Specification.) -/
def edge (i : ℕ) : ℚ := -1 + i / 5

/-- Adding `x` to one coefficient. (Specification.) -/
noncomputable def shift (C : Coeffs) (k : Key) (x : ℝ) : Coeffs := fun j => if j = k then C j + (x : ℂ) else C j

/-- A linear function of the real parts of the eight coefficients. (Specification.) -/
noncomputable def linear (a : Key → ℚ) (C : Coeffs) : ℝ :=
  a .W * (C .W).re + a .phiWB * (C .phiWB).re + a .phiD * (C .phiD).re + a .phil3_11 * (C .phil3_11).re
    + a .phil3_22 * (C .phil3_22).re + a .ll_1221 * (C .ll_1221).re + a .phil1_11 * (C .phil1_11).re + a .phie_11 * (C .phie_11).re

/-! ## The response of a row -/

/-- The factor with which a coefficient enters a row. (Specification.) -/
def resp (l : List (Key × ℚ)) (k : Key) : ℚ := ((l.filter (fun t => t.1 = k)).map (·.2)).sum

theorem foldl_comb (C : Coeffs) (l : List (Key × ℚ)) (z : ℂ) :
    l.foldl (fun acc t => acc + (t.2 : ℂ) * C t.1) z = z + comb C l := by
  unfold comb
  induction l generalizing z with
  | nil => simp
  | cons t l ih => simp only [List.foldl_cons]; rw [ih, ih (0 + _)]; ring

theorem comb_re (C : Coeffs) (l : List (Key × ℚ)) : (comb C l).re = linear (resp l) C := by
  induction l with
  | nil => simp [comb, linear, resp]
  | cons t l ih =>
    have h : comb C (t :: l) = (t.2 : ℂ) * C t.1 + comb C l := by
      conv_lhs => unfold comb
      simp only [List.foldl_cons]; rw [foldl_comb]; ring
    rw [h, Complex.add_re, ih]
    obtain ⟨k, c⟩ := t
    have : ((c : ℂ) * C k).re = (c : ℝ) * (C k).re := by
      have : (c : ℂ) = ((c : ℝ) : ℂ) := by push_cast; rfl
      rw [this, Complex.re_ofReal_mul]
    simp only [this]
    cases k <;> simp [linear, resp, List.filter_cons] <;> ring

theorem linear_shift (a : Key → ℚ) (C : Coeffs) (k : Key) (x : ℝ) : linear a (shift C k x) = linear a C + a k * x := by
  cases k <;> simp [linear, shift] <;> ring

theorem linear_zero (a : Key → ℚ) : linear a (fun _ => 0) = 0 := by simp [linear]

theorem find_tot (E : ℚ) (h : E ∈ Energies) : ∃ r ∈ totTable, r.1 = E ∧ totTable.find? (fun r => E == r.1) = some r := by
  have : ∀ e ∈ Energies, ∃ r ∈ totTable, r.1 = e ∧ (totTable.find? (fun r => e == r.1)) = some r := by
    decide +kernel
  exact this E h

theorem find_tot_none (E : ℚ) (h : E ∉ Energies) : totTable.find? (fun r => E == r.1) = none := by
  rw [List.find?_eq_none]
  intro r hr
  have hmem : ∀ r ∈ totTable, r.1 ∈ Energies := by decide +kernel
  simp only [beq_iff_eq]
  rintro rfl
  exact h (hmem r hr)

theorem eeWW_eq (E : ℚ) (h : E ∈ Energies) : ∃ r ∈ totTable, r.1 = E ∧ ∀ C, eeWW C E = .ok (1 + 1e6 * linear (resp r.2) C) := by
  obtain ⟨r, hr, he, hf⟩ := find_tot E h
  refine ⟨r, hr, he, fun C => ?_⟩
  unfold eeWW; rw [hf]; simp only [comb_re]

deriving instance DecidableEq for Bin

theorem find_diff (E : ℚ) (i : ℕ) (h : E ∈ DiffEnergies) (hi : i < 10) :
    ∃ r ∈ diffTable, r.1 = E ∧ diffTable.find? (fun r => E == r.1) = some r ∧
      ∃ b, r.2[i]? = some b ∧ b.lo = edge i ∧ b.hi = edge (i + 1) ∧ r.2.find? (fun b => edge i == b.lo && edge (i + 1) == b.hi) = some b := by
  have : ∀ e ∈ DiffEnergies, ∀ i < 10, ∃ r ∈ diffTable, r.1 = e ∧ diffTable.find? (fun r => e == r.1) = some r ∧
      ∃ b ∈ r.2, r.2[i]? = some b ∧ b.lo = edge i ∧ b.hi = edge (i + 1) ∧ r.2.find? (fun b => edge i == b.lo && edge (i + 1) == b.hi) = some b := by
    decide +kernel
  obtain ⟨r, hr, h1, h2, b, _, h3⟩ := this E h i hi
  exact ⟨r, hr, h1, h2, b, h3⟩

theorem eeWWdiff_eq (E : ℚ) (i : ℕ) (h : E ∈ DiffEnergies) (hi : i < 10) :
    ∃ r ∈ diffTable, r.1 = E ∧ ∃ b, r.2[i]? = some b ∧ b.lo = edge i ∧ b.hi = edge (i + 1) ∧
      ∀ C, eeWWdiff C E (edge i) (edge (i + 1)) = .ok ((b.sm : ℝ) + 246.22 ^ 2 * linear (resp b.lin) C) := by
  obtain ⟨r, hr, he, hf, b, hb, hlo, hhi, hfb⟩ := find_diff E i h hi
  refine ⟨r, hr, he, b, hb, hlo, hhi, fun C => ?_⟩
  unfold eeWWdiff; rw [hf]; simp only [hfb]
  congr 1
  rw [Complex.add_re]
  have h1 : (b.sm : ℂ).re = (b.sm : ℝ) := by
    have : (b.sm : ℂ) = ((b.sm : ℝ) : ℂ) := by push_cast; rfl
    rw [this, Complex.ofReal_re]
  have h2 : ((246.22 : ℂ) ^ 2) = ((246.22 ^ 2 : ℝ) : ℂ) := by push_cast; rfl
  rw [h1, h2, Complex.re_ofReal_mul, comb_re]

/-! ## Where the observables are defined -/

/-- **C139**: `R(ee->WW)` is defined at the ten energies of the LEP2 measurement and at no other; there is no interpolation:
anything else is a `ValueError`. -/
theorem C139_total_energies (C : Coeffs) (E : ℚ) :
    (E ∈ Energies → ∃ v, eeWW C E = .ok v) ∧ (E ∉ Energies → eeWW C E = .error .valueError) := by
  constructor
  · intro h; obtain ⟨r, _, _, hv⟩ := eeWW_eq E h; exact ⟨_, hv C⟩
  · intro h; unfold eeWW; rw [find_tot_none E h]

/-- **C139**: `<dR/dtheta>(ee->WW)` is defined at the four averaged energies in the ten bins of width 0.2 in the cosine, and
nowhere else: another energy, another bin or two adjacent bins taken together are a `ValueError`. -/
theorem C139_diff_bins (C : Coeffs) (E a b : ℚ) :
    ((E ∈ DiffEnergies ∧ ∃ i < 10, a = edge i ∧ b = edge (i + 1)) → ∃ v, eeWWdiff C E a b = .ok v) ∧
    (¬ (E ∈ DiffEnergies ∧ ∃ i < 10, a = edge i ∧ b = edge (i + 1)) → eeWWdiff C E a b = .error .valueError) := by
  constructor
  · rintro ⟨h, i, hi, rfl, rfl⟩
    obtain ⟨r, _, _, b, _, _, _, hv⟩ := eeWWdiff_eq E i h hi
    exact ⟨_, hv C⟩
  · intro h
    unfold eeWWdiff
    cases hf : diffTable.find? (fun r => E == r.1) with
    | none => rfl
    | some r =>
      have hr := List.mem_of_find?_eq_some hf
      have he := List.find?_some hf
      simp only [beq_iff_eq] at he
      have hE : E ∈ DiffEnergies := by
        have : ∀ r ∈ diffTable, r.1 ∈ DiffEnergies := by decide +kernel
        rw [he]; exact this r hr
      have hn : r.2.find? (fun t => a == t.lo && b == t.hi) = none := by
        rw [List.find?_eq_none]
        intro t ht
        simp only [Bool.and_eq_true, beq_iff_eq]
        rintro ⟨h1, h2⟩
        have hb : ∀ r ∈ diffTable, ∀ t ∈ r.2, ∃ i < 10, t.lo = edge i ∧ t.hi = edge (i + 1) := by decide +kernel
        obtain ⟨i, hi, h3, h4⟩ := hb r hr t ht
        exact h ⟨hE, i, hi, h1.trans h3, h2.trans h4⟩
      simp only [hn]

/-- **C139**: the two observables are never both defined at the same energy: 182.7 GeV is refused by one and 182.66 GeV by the
other. -/
theorem C139_never_both (C : Coeffs) (E a b : ℚ) (v w : ℝ) : ¬ (eeWW C E = .ok v ∧ eeWWdiff C E a b = .ok w) := by
  rintro ⟨h1, h2⟩
  have e1 : E ∈ Energies := by
    by_contra h; rw [(C139_total_energies C E).2 h] at h1; cases h1
  have e2 : E ∈ DiffEnergies := by
    by_contra h; rw [(C139_diff_bins C E a b).2 (fun k => h k.1)] at h2; cases h2
  have : ∀ e ∈ Energies, e ∉ DiffEnergies := by decide +kernel
  exact this E e1 e2

/-! ## The total rate -/

/-- **C139**: with all coefficients zero `R(ee->WW)` is exactly 1 at every energy of the table. -/
theorem C139_sm_one (E : ℚ) (h : E ∈ Energies) : eeWW (fun _ => 0) E = .ok 1 := by
  obtain ⟨r, _, _, hv⟩ := eeWW_eq E h
  rw [hv, linear_zero]; norm_num

/-- **C139**: at each energy the ratio is one plus a linear function of the real parts of the eight coefficients; phases do
not matter, and there are no quadratic terms. -/
theorem C139_total_linear (E : ℚ) (h : E ∈ Energies) :
    ∃ a : Key → ℚ, ∀ C, eeWW C E = .ok (1 + 1e6 * linear a C) := by
  obtain ⟨r, _, _, hv⟩ := eeWW_eq E h
  exact ⟨_, hv⟩

/-- **C139**: the muonic and the four-lepton coefficient enter only through the Fermi constant, in the combination
`phil3_22 - ll_1221 / 2`: putting `x` in the first changes the ratio as putting `-2 x` in the second, up to the rounding of
the table to three digits, for all coefficients and at every energy. -/
theorem C139_total_fermi (E : ℚ) (h : E ∈ Energies) (C : Coeffs) (x : ℝ) :
    ∃ v w, eeWW (shift C .phil3_22 x) E = .ok v ∧ eeWW (shift C .ll_1221 (-2 * x)) E = .ok w ∧
      |v - w| ≤ 1e6 * (0.001 * |x|) := by
  obtain ⟨r, hr, _, hv⟩ := eeWW_eq E h
  refine ⟨_, _, hv _, hv _, ?_⟩
  rw [linear_shift, linear_shift]
  have hb : ∀ r ∈ totTable, |resp r.2 .phil3_22 + 2 * resp r.2 .ll_1221| ≤ 1 / 1000 := by decide +kernel
  have := hb r hr
  have h2 : |(resp r.2 .phil3_22 : ℝ) + 2 * resp r.2 .ll_1221| ≤ 1 / 1000 := by
    have := (Rat.cast_le (K := ℝ)).2 this
    push_cast at this; convert this using 2
  have : (1 + 1e6 * (linear (resp r.2) C + (resp r.2 .phil3_22 : ℝ) * x) - (1 + 1e6 * (linear (resp r.2) C + (resp r.2 .ll_1221 : ℝ) * (-2 * x))) : ℝ)
      = 1e6 * (((resp r.2 .phil3_22 : ℝ) + 2 * resp r.2 .ll_1221) * x) := by ring
  rw [this, abs_mul, abs_mul, abs_of_pos (by norm_num : (0:ℝ) < 1e6)]
  have := mul_le_mul_of_nonneg_right h2 (abs_nonneg x)
  norm_num at this ⊢
  linarith

/-- The signs of the response: a positive value of this coefficient raises (`1`) or lowers (`-1`) the rate.
(Specification.) -/
def sign : Key → ℚ
  | .W => -1 | .phiWB => -1 | .phiD => -1 | .phil3_11 => 1 | .phil3_22 => -1 | .ll_1221 => 1 | .phil1_11 => -1 | .phie_11 => -1

/-- **C139**: the direction in which a coefficient moves the total rate is the same at all ten energies: `phil3_11` and
`ll_1221` raise it, the others lower it (`W` not at threshold, see below). -/
theorem C139_total_signs (E : ℚ) (h : E ∈ Energies) (C : Coeffs) (k : Key) (hk : k = .W → E ≠ 161.3) (x : ℝ) (hx : 0 < x) :
    ∃ v w, eeWW C E = .ok v ∧ eeWW (shift C k x) E = .ok w ∧ 0 < (sign k : ℝ) * (w - v) := by
  obtain ⟨r, hr, he, hv⟩ := eeWW_eq E h
  refine ⟨_, _, hv _, hv _, ?_⟩
  rw [linear_shift]
  have hb : ∀ r ∈ totTable, ∀ k ∈ [Key.W, .phiWB, .phiD, .phil3_11, .phil3_22, .ll_1221, .phil1_11, .phie_11],
      (k = .W → r.1 ≠ 161.3) → 0 < sign k * resp r.2 k := by decide +kernel
  have := hb r hr k (by cases k <;> simp) (fun e => by rw [he]; exact hk e)
  have h2 : (0 : ℝ) < (sign k : ℝ) * resp r.2 k := by exact_mod_cast this
  have : (sign k : ℝ) * (1 + 1e6 * (linear (resp r.2) C + (resp r.2 k : ℝ) * x) - (1 + 1e6 * linear (resp r.2) C))
      = 1e6 * ((sign k : ℝ) * resp r.2 k) * x := by ring
  rw [this]; positivity

/-- **C139**: at the threshold energy 161.3 GeV the triple gauge coefficient has no effect. -/
theorem C139_threshold_W (C : Coeffs) (x : ℝ) : eeWW (shift C .W x) 161.3 = eeWW C 161.3 := by
  obtain ⟨r, hr, he, hv⟩ := eeWW_eq 161.3 (by decide +kernel)
  rw [hv, hv, linear_shift]
  have hb : ∀ r ∈ totTable, r.1 = 161.3 → resp r.2 .W = 0 := by decide +kernel
  rw [hb r hr he]; simp

/-- **C139**: between neighbouring energies no response changes by more than 0.01 per TeV⁻²: there is no jump in the table. -/
theorem C139_total_smooth (n : ℕ) (E E' : ℚ) (h : Energies[n]? = some E) (h' : Energies[n + 1]? = some E') (C : Coeffs) (k : Key) (x : ℝ) :
    ∃ v w v' w', eeWW C E = .ok v ∧ eeWW (shift C k x) E = .ok w ∧ eeWW C E' = .ok v' ∧ eeWW (shift C k x) E' = .ok w' ∧
      |(w - v) - (w' - v')| ≤ 1e6 * (0.01 * |x|) := by
  obtain ⟨r, hr, he, hv⟩ := eeWW_eq E (List.mem_of_getElem? h)
  obtain ⟨r', hr', he', hv'⟩ := eeWW_eq E' (List.mem_of_getElem? h')
  refine ⟨_, _, _, _, hv _, hv _, hv' _, hv' _, ?_⟩
  rw [linear_shift, linear_shift]
  have hn : n < 10 := by
    have := (List.getElem?_eq_some_iff.1 h).1
    exact this
  have hb : ∀ n < 10, ∀ r ∈ totTable, ∀ r' ∈ totTable, Energies[n]? = some r.1 → Energies[n + 1]? = some r'.1 →
      ∀ k ∈ [Key.W, .phiWB, .phiD, .phil3_11, .phil3_22, .ll_1221, .phil1_11, .phie_11], |resp r.2 k - resp r'.2 k| ≤ 1 / 100 := by
    decide +kernel
  have := hb n hn r hr r' hr' (by rw [he]; exact h) (by rw [he']; exact h') k (by cases k <;> simp)
  have h2 : |(resp r.2 k : ℝ) - resp r'.2 k| ≤ 1 / 100 := by
    have := (Rat.cast_le (K := ℝ)).2 this
    push_cast at this; convert this using 2
  have : (1 + 1e6 * (linear (resp r.2) C + (resp r.2 k : ℝ) * x) - (1 + 1e6 * linear (resp r.2) C)
      - (1 + 1e6 * (linear (resp r'.2) C + (resp r'.2 k : ℝ) * x) - (1 + 1e6 * linear (resp r'.2) C)) : ℝ)
      = 1e6 * (((resp r.2 k : ℝ) - resp r'.2 k) * x) := by ring
  rw [this, abs_mul, abs_mul, abs_of_pos (by norm_num : (0:ℝ) < 1e6)]
  have := mul_le_mul_of_nonneg_right h2 (abs_nonneg x)
  norm_num at this ⊢
  linarith

/-- **C139** (finding): being linear, the ratio of cross sections is not bounded below: at every energy of the table some
real coefficient makes it negative. -/
theorem C139_total_negative (E : ℚ) (h : E ∈ Energies) :
    ∃ v, eeWW (shift (fun _ => 0) .phil3_22 1e-5) E = .ok v ∧ v < 0 := by
  obtain ⟨r, hr, he, hv⟩ := eeWW_eq E h
  refine ⟨_, hv _, ?_⟩
  rw [linear_shift, linear_zero]
  have hb : ∀ r ∈ totTable, resp r.2 .phil3_22 ≤ -0.17 := by decide +kernel
  have h2 : (resp r.2 .phil3_22 : ℝ) ≤ -0.17 := by
    have := (Rat.cast_le (K := ℝ)).2 (hb r hr)
    push_cast at this; convert this using 1
  norm_num at h2 ⊢
  linarith

/-! ## The angular distribution -/

/-- **C139**: in each bin the value is a fixed number plus a linear function of the real parts of the coefficients. -/
theorem C139_diff_linear (E : ℚ) (i : ℕ) (h : E ∈ DiffEnergies) (hi : i < 10) :
    ∃ (s : ℚ) (a : Key → ℚ), 0 < s ∧ ∀ C, eeWWdiff C E (edge i) (edge (i + 1)) = .ok ((s : ℝ) + 246.22 ^ 2 * linear a C) := by
  obtain ⟨r, hr, he, b, hb, hlo, hhi, hv⟩ := eeWWdiff_eq E i h hi
  have hp : ∀ r ∈ diffTable, ∀ b ∈ r.2, 0 < b.sm := by decide +kernel
  exact ⟨_, _, hp r hr b (List.mem_of_getElem? hb), hv⟩

/-- **C139**: in every bin, too, the two coefficients that enter only through the Fermi constant appear in the combination
`phil3_22 - ll_1221 / 2`, up to the rounding of the table. -/
theorem C139_diff_fermi (E : ℚ) (i : ℕ) (h : E ∈ DiffEnergies) (hi : i < 10) (C : Coeffs) (x : ℝ) :
    ∃ v w, eeWWdiff (shift C .phil3_22 x) E (edge i) (edge (i + 1)) = .ok v ∧
      eeWWdiff (shift C .ll_1221 (-2 * x)) E (edge i) (edge (i + 1)) = .ok w ∧ |v - w| ≤ 246.22 ^ 2 * (0.00002 * |x|) := by
  obtain ⟨r, hr, he, b, hb, hlo, hhi, hv⟩ := eeWWdiff_eq E i h hi
  refine ⟨_, _, hv _, hv _, ?_⟩
  rw [linear_shift, linear_shift]
  have hq : ∀ r ∈ diffTable, ∀ b ∈ r.2, |resp b.lin .phil3_22 + 2 * resp b.lin .ll_1221| ≤ 2 / 100000 := by decide +kernel
  have h2 : |(resp b.lin .phil3_22 : ℝ) + 2 * resp b.lin .ll_1221| ≤ 2 / 100000 := by
    have := (Rat.cast_le (K := ℝ)).2 (hq r hr b (List.mem_of_getElem? hb))
    push_cast at this; convert this using 2
  have : ((b.sm : ℝ) + 246.22 ^ 2 * (linear (resp b.lin) C + (resp b.lin .phil3_22 : ℝ) * x) - ((b.sm : ℝ) + 246.22 ^ 2 * (linear (resp b.lin) C + (resp b.lin .ll_1221 : ℝ) * (-2 * x))) : ℝ)
      = 246.22 ^ 2 * (((resp b.lin .phil3_22 : ℝ) + 2 * resp b.lin .ll_1221) * x) := by ring
  rw [this, abs_mul, abs_mul, abs_of_pos (by norm_num : (0:ℝ) < 246.22 ^ 2)]
  have := mul_le_mul_of_nonneg_right h2 (abs_nonneg x)
  norm_num at this ⊢
  linarith

/-- **C139**: the coupling of the right-handed electron enters through the exchange of a single vector boson: its effect is
the same in a bin and in the mirrored bin, exactly, for all other coefficients. -/
theorem C139_diff_mirror (E : ℚ) (i : ℕ) (h : E ∈ DiffEnergies) (hi : i < 10) (C : Coeffs) (x : ℝ) :
    ∃ v w v' w', eeWWdiff C E (edge i) (edge (i + 1)) = .ok v ∧ eeWWdiff (shift C .phie_11 x) E (edge i) (edge (i + 1)) = .ok w ∧
      eeWWdiff C E (-edge (i + 1)) (-edge i) = .ok v' ∧ eeWWdiff (shift C .phie_11 x) E (-edge (i + 1)) (-edge i) = .ok w' ∧
      w - v = w' - v' := by
  obtain ⟨r, hr, he, b, hb, hlo, hhi, hv⟩ := eeWWdiff_eq E i h hi
  obtain ⟨r', hr', he', b', hb', hlo', hhi', hv'⟩ := eeWWdiff_eq E (9 - i) h (by omega)
  have e1 : -edge (i + 1) = edge (9 - i) := by
    unfold edge; rw [Nat.cast_sub (by omega)]; push_cast; ring
  have e2 : -edge i = edge (9 - i + 1) := by
    have : (9 - i + 1 : ℕ) = 10 - i := by omega
    unfold edge; rw [this, Nat.cast_sub (by omega)]; push_cast; ring
  rw [e1, e2]
  refine ⟨_, _, _, _, hv _, hv _, hv' _, hv' _, ?_⟩
  rw [linear_shift, linear_shift]
  have hq : ∀ r ∈ diffTable, ∀ r' ∈ diffTable, r.1 = r'.1 → ∀ i < 10, ∀ b ∈ r.2, ∀ b' ∈ r'.2, r.2[i]? = some b → r'.2[9 - i]? = some b' →
      resp b.lin .phie_11 = resp b'.lin .phie_11 := by decide +kernel
  rw [hq r hr r' hr' (he.trans he'.symm) i hi b (List.mem_of_getElem? hb) b' (List.mem_of_getElem? hb') hb hb']
  ring

/-- **C139**: without new physics the distribution grows from each bin to the next: most `W⁻` follow the electron. -/
theorem C139_diff_sm_forward (E : ℚ) (i j : ℕ) (h : E ∈ DiffEnergies) (hij : i < j) (hj : j < 10) :
    ∃ v w, eeWWdiff (fun _ => 0) E (edge i) (edge (i + 1)) = .ok v ∧ eeWWdiff (fun _ => 0) E (edge j) (edge (j + 1)) = .ok w ∧
      0 < v ∧ v < w := by
  obtain ⟨r, hr, he, b, hb, hlo, hhi, hv⟩ := eeWWdiff_eq E i h (by omega)
  obtain ⟨r', hr', he', b', hb', hlo', hhi', hv'⟩ := eeWWdiff_eq E j h hj
  refine ⟨_, _, hv _, hv' _, ?_⟩
  rw [linear_zero, linear_zero]
  have hq : ∀ r ∈ diffTable, ∀ r' ∈ diffTable, r.1 = r'.1 → ∀ j < 10, ∀ i < j, ∀ b ∈ r.2, ∀ b' ∈ r'.2, r.2[i]? = some b → r'.2[j]? = some b' →
      0 < b.sm ∧ b.sm < b'.sm := by decide +kernel
  have := hq r hr r' hr' (he.trans he'.symm) j hj i hij b (List.mem_of_getElem? hb) b' (List.mem_of_getElem? hb') hb hb'
  have h1 : (0 : ℝ) < b.sm := by exact_mod_cast this.1
  have h2 : (b.sm : ℝ) < b'.sm := by exact_mod_cast this.2
  constructor <;> simp only [mul_zero, add_zero] <;> assumption

/-- **C139**: the responses to the left-handed lepton coefficients and to `W` grow from each bin to the next, the one to `phil3_22` falls. -/
theorem C139_diff_monotone (E : ℚ) (i j : ℕ) (h : E ∈ DiffEnergies) (hij : i < j) (hj : j < 10) (C : Coeffs) (k : Key) (x : ℝ) (hx : 0 < x) :
    ∃ v w v' w', eeWWdiff C E (edge i) (edge (i + 1)) = .ok v ∧ eeWWdiff (shift C k x) E (edge i) (edge (i + 1)) = .ok w ∧
      eeWWdiff C E (edge j) (edge (j + 1)) = .ok v' ∧ eeWWdiff (shift C k x) E (edge j) (edge (j + 1)) = .ok w' ∧
      (k = .phil3_11 ∨ k = .phil1_11 ∨ k = .W ∨ k = .ll_1221 → w - v < w' - v') ∧ (k = .phil3_22 → w' - v' < w - v) := by
  obtain ⟨r, hr, he, b, hb, hlo, hhi, hv⟩ := eeWWdiff_eq E i h (by omega)
  obtain ⟨r', hr', he', b', hb', hlo', hhi', hv'⟩ := eeWWdiff_eq E j h hj
  refine ⟨_, _, _, _, hv _, hv _, hv' _, hv' _, ?_⟩
  rw [linear_shift, linear_shift]
  have hq : ∀ r ∈ diffTable, ∀ r' ∈ diffTable, r.1 = r'.1 → ∀ j < 10, ∀ i < j, ∀ b ∈ r.2, ∀ b' ∈ r'.2, r.2[i]? = some b → r'.2[j]? = some b' →
      (∀ k ∈ [Key.phil3_11, .phil1_11, .W, .ll_1221], resp b.lin k < resp b'.lin k) ∧ resp b'.lin .phil3_22 < resp b.lin .phil3_22 := by decide +kernel
  have := hq r hr r' hr' (he.trans he'.symm) j hj i hij b (List.mem_of_getElem? hb) b' (List.mem_of_getElem? hb') hb hb'
  have e1 : ((b.sm : ℝ) + 246.22 ^ 2 * (linear (resp b.lin) C + (resp b.lin k : ℝ) * x) - ((b.sm : ℝ) + 246.22 ^ 2 * linear (resp b.lin) C)) = 246.22 ^ 2 * ((resp b.lin k : ℝ) * x) := by ring
  have e2 : ((b'.sm : ℝ) + 246.22 ^ 2 * (linear (resp b'.lin) C + (resp b'.lin k : ℝ) * x) - ((b'.sm : ℝ) + 246.22 ^ 2 * linear (resp b'.lin) C)) = 246.22 ^ 2 * ((resp b'.lin k : ℝ) * x) := by ring
  rw [e1, e2]
  constructor
  · intro hk
    have : resp b.lin k < resp b'.lin k := this.1 k (by rcases hk with rfl | rfl | rfl | rfl <;> simp)
    have : (resp b.lin k : ℝ) < resp b'.lin k := by exact_mod_cast this
    have := mul_lt_mul_of_pos_right this hx
    norm_num; linarith
  · rintro rfl
    have : (resp b'.lin .phil3_22 : ℝ) < resp b.lin .phil3_22 := by exact_mod_cast this.2
    have := mul_lt_mul_of_pos_right this hx
    norm_num; linarith

/-- **C139** (finding): `<dR/dtheta>(ee->WW)` is described as normalised to the SM, but in the SM it is in no bin equal
to 1: it is the cross section itself, in pb. -/
theorem C139_diff_not_normalised (E : ℚ) (i : ℕ) (h : E ∈ DiffEnergies) (hi : i < 10) :
    ∃ v, eeWWdiff (fun _ => 0) E (edge i) (edge (i + 1)) = .ok v ∧ v ≠ 1 := by
  obtain ⟨r, hr, he, b, hb, hlo, hhi, hv⟩ := eeWWdiff_eq E i h hi
  refine ⟨_, hv _, ?_⟩
  rw [linear_zero]
  have hq : ∀ r ∈ diffTable, ∀ b ∈ r.2, b.sm ≠ 1 := by decide +kernel
  have := hq r hr b (List.mem_of_getElem? hb)
  simp; exact_mod_cast this

/-- The sum of the ten bins at one energy. (Specification.) -/
noncomputable def sumBins (C : Coeffs) (E : ℚ) : Except PyErr ℝ := do
  let l ← (List.range 10).mapM (fun i => eeWWdiff C E (edge i) (edge (i + 1)))
  pure l.sum

theorem sumBins_eq (C : Coeffs) : sumBins C 182.66 = .ok ((bins0.map (fun b => (b.sm : ℝ) + 246.22 ^ 2 * linear (resp b.lin) C)).sum) := by
  have key : ∀ i < 10, ∃ b, bins0[i]? = some b ∧ eeWWdiff C 182.66 (edge i) (edge (i + 1)) = .ok ((b.sm : ℝ) + 246.22 ^ 2 * linear (resp b.lin) C) := by
    intro i hi
    obtain ⟨r, hr, he, b, hb, _, _, hv⟩ := eeWWdiff_eq 182.66 i (by decide +kernel) hi
    have hq : ∀ r ∈ diffTable, r.1 = 182.66 → r.2 = bins0 := by decide +kernel
    exact ⟨b, by rw [← hq r hr he]; exact hb, hv C⟩
  have : (List.range 10).mapM (fun i => eeWWdiff C 182.66 (edge i) (edge (i + 1))) = .ok (bins0.map (fun b => (b.sm : ℝ) + 246.22 ^ 2 * linear (resp b.lin) C)) := by
    have h10 : List.range 10 = [0,1,2,3,4,5,6,7,8,9] := rfl
    rw [h10]
    obtain ⟨b0, h0, e0⟩ := key 0 (by norm_num)
    obtain ⟨b1, h1, e1⟩ := key 1 (by norm_num)
    obtain ⟨b2, h2, e2⟩ := key 2 (by norm_num)
    obtain ⟨b3, h3, e3⟩ := key 3 (by norm_num)
    obtain ⟨b4, h4, e4⟩ := key 4 (by norm_num)
    obtain ⟨b5, h5, e5⟩ := key 5 (by norm_num)
    obtain ⟨b6, h6, e6⟩ := key 6 (by norm_num)
    obtain ⟨b7, h7, e7⟩ := key 7 (by norm_num)
    obtain ⟨b8, h8, e8⟩ := key 8 (by norm_num)
    obtain ⟨b9, h9, e9⟩ := key 9 (by norm_num)
    simp only [List.mapM_cons, List.mapM_nil, e0, e1, e2, e3, e4, e5, e6, e7, e8, e9, Bind.bind, Except.bind, pure, Except.pure]
    simp only [bins0, List.getElem?_cons_zero, List.getElem?_cons_succ, Option.some.injEq] at h0 h1 h2 h3 h4 h5 h6 h7 h8 h9
    subst h0 h1 h2 h3 h4 h5 h6 h7 h8 h9
    rfl
  unfold sumBins
  rw [this]; rfl

/-- **C139** (finding): the two observables disagree on the same physics.  With `phiWB = x` the ten bins at 182.66 GeV, summed
and divided by their sum in the SM, change by less than `-0.6 v² x`, while `R(ee->WW)` at 182.7 GeV changes by more than
`-2.9 v² x`: a factor of five.  (The unit test of the package compares the two with a tolerance of 0.25 at `v² x = 0.1`, where
the values are 0.942 and 0.703.) -/
theorem C139_finding_sum_of_bins (x : ℝ) (hx : 0 < x) :
    ∃ s s0 R, sumBins (shift (fun _ => 0) .phiWB x) 182.66 = .ok s ∧ sumBins (fun _ => 0) 182.66 = .ok s0 ∧
      eeWW (shift (fun _ => 0) .phiWB x) 182.7 = .ok R ∧
      s / s0 - 1 > -0.6 * 246.22 ^ 2 * x ∧ R - 1 < -2.9 * 246.22 ^ 2 * x := by
  obtain ⟨r, hr, he, hv⟩ := eeWW_eq 182.7 (by decide +kernel)
  have hw : ∀ r ∈ totTable, r.1 = 182.7 → resp r.2 .phiWB = -0.18 := by decide +kernel
  refine ⟨_, _, _, sumBins_eq _, sumBins_eq _, hv _, ?_, ?_⟩
  · simp only [linear_shift, linear_zero]
    have h0 : (bins0.map (fun b => (b.sm : ℝ) + 246.22 ^ 2 * (0 + (resp b.lin .phiWB : ℝ) * x))).sum
        = 21.119 + 246.22 ^ 2 * (-12.296791 * x) := by
      have a : ∀ l : List Bin, (l.map (fun b => (b.sm : ℝ) + 246.22 ^ 2 * (0 + (resp b.lin .phiWB : ℝ) * x))).sum
          = (((l.map (·.sm)).sum : ℚ) : ℝ) + 246.22 ^ 2 * ((((l.map (fun b => resp b.lin .phiWB)).sum : ℚ) : ℝ) * x) := by
        intro l
        induction l with
        | nil => simp
        | cons b l ih => simp only [List.map_cons, List.sum_cons, ih]; push_cast; ring
      have b1 : (bins0.map (·.sm)).sum = 21.119 := by decide +kernel
      have b2 : (bins0.map (fun b => resp b.lin .phiWB)).sum = -12.296791 := by decide +kernel
      rw [a, b1, b2]; norm_num
    have h1 : (bins0.map (fun b => (b.sm : ℝ) + 246.22 ^ 2 * 0)).sum = 21.119 := by
      have a : ∀ l : List Bin, (l.map (fun b => (b.sm : ℝ) + 246.22 ^ 2 * 0)).sum = (((l.map (·.sm)).sum : ℚ) : ℝ) := by
        intro l
        induction l with
        | nil => simp
        | cons b l ih => simp only [List.map_cons, List.sum_cons, ih]; push_cast; ring
      have b1 : (bins0.map (·.sm)).sum = 21.119 := by decide +kernel
      rw [a, b1]; norm_num
    rw [h0, h1]
    have : (21.119 + 246.22 ^ 2 * (-12.296791 * x)) / 21.119 - 1 = -(12.296791 / 21.119) * 246.22 ^ 2 * x := by
      field_simp; norm_num
    rw [this]
    norm_num
    linarith
  · rw [linear_shift, linear_zero, hw r hr he]
    norm_num
    linarith

/-! ## The observables -/

/-- **C139**: both observables read the coefficients in the Warsaw basis at the one configured scale: two sets of coefficients
that agree there give the same predictions, whatever they are elsewhere; errors of the running are passed on. -/
theorem C139_obs_scale (s : ℚ) (g g' : ℚ → Except PyErr Coeffs) (h : g s = g' s) (E a b : ℚ) :
    eeWWobs (.ok s) g E = eeWWobs (.ok s) g' E ∧ eeWWdiffObs (.ok s) g E a b = eeWWdiffObs (.ok s) g' E a b ∧
    (∀ e, g s = .error e → eeWWobs (.ok s) g E = .error e ∧ eeWWdiffObs (.ok s) g E a b = .error e) ∧
    (∀ C, g s = .ok C → eeWWobs (.ok s) g E = eeWW C E ∧ eeWWdiffObs (.ok s) g E a b = eeWWdiff C E a b) := by
  simp only [eeWWobs, eeWWdiffObs, Bind.bind, Except.bind, h, true_and]
  constructor
  · intro e he; rw [he]; exact ⟨rfl, rfl⟩
  · intro C hC; rw [hC]; exact ⟨rfl, rfl⟩

/-- The hypotheses are met: 182.7 GeV and the first bin at 182.66 GeV. -/
example : (182.7 : ℚ) ∈ Energies ∧ (182.66 : ℚ) ∈ DiffEnergies ∧ edge 0 = -1 ∧ edge 1 = -0.8 ∧ (183 : ℚ) ∉ Energies := by decide +kernel

end Verif.EeWW
