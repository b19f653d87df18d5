import Verif.Physics.Rge.Model
import Verif.Physics.RunningTheorems
import Mathlib.Analysis.SpecialFunctions.Pow.Continuity
set_option linter.unusedVariables false
set_option linter.unusedSimpArgs false
namespace Verif.Rge
open Verif.Py Verif.Running Filter Topology

/-- The function never falls out of its loop: it always returns a number. -/
theorem C122_total (al : ℝ → Nat → ℝ) (t : Thr) (f scale : ℝ) (nfOut : Option Nat) : ∃ x, getFPerp al t f scale nfOut = some x := by
  unfold getFPerp
  split_ifs with h
  · exact ⟨f, rfl⟩
  · have last : ∀ f start, ∃ x, fperpLoop al t scale nfOut [6] f start = some x := by
      intro f start
      have : (if nfOut = some 6 then scale else upStop t 6 scale) = scale := by simp [upStop]
      simp only [fperpLoop, this, if_true]
      exact ⟨_, rfl⟩
    have go : ∀ nf l, (∀ f start, ∃ x, fperpLoop al t scale nfOut l f start = some x) → ∀ f start, ∃ x, fperpLoop al t scale nfOut (nf :: l) f start = some x := by
      intro nf l hl f start
      rw [fperpLoop]
      by_cases hs : (if nfOut = some nf then scale else upStop t nf scale) = scale
      · simp only [hs, if_true]; exact ⟨_, rfl⟩
      · simp only [hs, if_false]; exact hl _ _
    exact go 3 _ (go 4 _ (go 5 _ last)) f 2

/-- Input and output are proportional, and a positive input stays positive for a positive coupling. -/
theorem C122_linear (al : ℝ → Nat → ℝ) (t : Thr) (f c scale x : ℝ) (nfOut : Option Nat) (hx : getFPerp al t f scale nfOut = some x) :
    getFPerp al t (c * f) scale nfOut = some (c * x) ∧ ((∀ s n, 0 < al s n) → 0 < f → 0 < x) := by
  have lp : ∀ l f start x, fperpLoop al t scale nfOut l f start = some x → fperpLoop al t scale nfOut l (c * f) start = some (c * x)
      ∧ ((∀ s n, 0 < al s n) → 0 < f → 0 < x) := by
    intro l
    induction l with
    | nil => intro f start x h; simp [fperpLoop] at h
    | cons nf l ih =>
      intro f start x h
      rw [fperpLoop] at h ⊢
      have rp : ∀ stop, (∀ s n, 0 < al s n) → 0 < rgFactor al start stop nf := fun stop hp => Real.rpow_pos_of_pos (div_pos (hp _ _) (hp _ _)) _
      by_cases hs : (if nfOut = some nf then scale else upStop t nf scale) = scale
      · simp only [hs, if_true, Option.some.injEq] at h ⊢
        refine ⟨by rw [← h]; ring, fun hp hf => by rw [← h]; exact mul_pos (rp _ hp) hf⟩
      · simp only [hs, if_false] at h ⊢
        obtain ⟨a, b⟩ := ih _ _ _ h
        refine ⟨?_, fun hp hf => b hp (mul_pos (rp _ hp) hf)⟩
        rw [show ∀ q : ℝ, q * (c * f) = c * (q * f) from fun q => by ring]; exact a
  unfold getFPerp at hx ⊢
  split_ifs at hx ⊢ with h
  · injection hx with hx; subst hx; exact ⟨rfl, fun _ h => h⟩
  · exact lp _ _ _ _ hx

/-- The chain of factors with the flavour thresholds crossed: specification of `get_f_perp` away from 2 GeV when the
flavour number is not given. -/
noncomputable def chain (al : ℝ → Nat → ℝ) (t : Thr) (s : ℝ) : ℝ :=
  let R (a b : ℝ) (n : Nat) : ℝ := (al b n / al a n) ^ (4 / (33 - 2 * (n : ℝ)))
  if s ≤ t.mc then R 2 s 3
  else if s ≤ t.mb then R 2 t.mc 3 * R t.mc s 4
  else if s ≤ t.mt then R 2 t.mc 3 * R t.mc t.mb 4 * R t.mb s 5
  else R 2 t.mc 3 * R t.mc t.mb 4 * R t.mb t.mt 5 * R t.mt s 6

theorem loop_val (al : ℝ → Nat → ℝ) (t : Thr) (ht : t.mc < t.mb ∧ t.mb < t.mt) (f s : ℝ) :
    fperpLoop al t s none [3, 4, 5, 6] f 2 = some (chain al t s * f) := by
  obtain ⟨h1, h2⟩ := ht
  have u3 : upStop t 3 s = min t.mc s := by simp [upStop, Thr.at]
  have u4 : upStop t 4 s = min t.mb s := by simp [upStop, Thr.at]
  have u5 : upStop t 5 s = min t.mt s := by simp [upStop, Thr.at]
  have u6 : upStop t 6 s = s := by simp [upStop]
  have a4 : t.at (3 + 1) = t.mc := rfl
  have a5 : t.at (4 + 1) = t.mb := rfl
  have a6 : t.at (5 + 1) = t.mt := rfl
  simp only [fperpLoop, u3, u4, u5, u6, a4, a5, a6, reduceCtorEq, if_false, if_true]
  unfold chain
  by_cases c1 : s ≤ t.mc
  · simp [min_eq_right c1, c1, rgFactor]
  · have m1 : min t.mc s = t.mc := min_eq_left (le_of_not_ge c1)
    have n1 : t.mc ≠ s := fun e => c1 e.ge
    rw [m1, if_neg n1, if_neg c1]
    by_cases c2 : s ≤ t.mb
    · rw [min_eq_right c2, if_pos rfl, if_pos c2]; simp only [rgFactor]; congr 1; push_cast; ring
    · have m2 : min t.mb s = t.mb := min_eq_left (le_of_not_ge c2)
      have n2 : t.mb ≠ s := fun e => c2 e.ge
      rw [m2, if_neg n2, if_neg c2]
      by_cases c3 : s ≤ t.mt
      · rw [min_eq_right c3, if_pos rfl, if_pos c3]; simp only [rgFactor]; congr 1; push_cast; ring
      · have m3 : min t.mt s = t.mt := min_eq_left (le_of_not_ge c3)
        have n3 : t.mt ≠ s := fun e => c3 e.ge
        rw [m3, if_neg n3, if_neg c3]; simp only [rgFactor]; congr 1; push_cast; ring

/-- Away from 2 GeV, without an explicit flavour number, the result is the input times the chain of leading-order
factors through the thresholds; at 2 GeV it is the input. -/
theorem C122_value (al : ℝ → Nat → ℝ) (t : Thr) (ht : t.mc < t.mb ∧ t.mb < t.mt) (f s : ℝ) :
    getFPerp al t f s none = some (if s = 2 then f else chain al t s * f) := by
  unfold getFPerp
  split_ifs with h
  · rfl
  · exact loop_val al t ht f s

/-- (FINDING) the result is discontinuous at 2 GeV: with `mc < 2 < mb` and a continuous four-flavour coupling the values
nearby tend to the three-flavour factor down to `mc` times the four-flavour factor back up, which differs from one (the
value at 2 GeV) unless the two runnings between `mc` and 2 GeV happen to compensate. -/
theorem C122_jump (al : ℝ → Nat → ℝ) (t : Thr) (f : ℝ) (h1 : t.mc < 2) (h2 : 2 < t.mb) (h3 : t.mb < t.mt) (hp : ∀ s n, 0 < al s n)
    (hc : ContinuousAt (fun s => al s 4) 2) (hf : f ≠ 0) :
    getFPerp al t f 2 none = some f
    ∧ (∃ g : ℝ → ℝ, (∀ᶠ s in 𝓝[≠] 2, getFPerp al t f s none = some (g s)) ∧
        Tendsto g (𝓝[≠] 2) (𝓝 ((al t.mc 3 / al 2 3) ^ (4 / 27 : ℝ) * (al 2 4 / al t.mc 4) ^ (4 / 25 : ℝ) * f)))
    ∧ (((al t.mc 3 / al 2 3) ^ (4 / 27 : ℝ) * (al 2 4 / al t.mc 4) ^ (4 / 25 : ℝ) * f = f)
        ↔ (al t.mc 3 / al 2 3) ^ (4 / 27 : ℝ) = (al t.mc 4 / al 2 4) ^ (4 / 25 : ℝ)) := by
  have ht : t.mc < t.mb ∧ t.mb < t.mt := ⟨by linarith, h3⟩
  refine ⟨by rw [C122_value al t ht]; simp, ⟨fun s => (al t.mc 3 / al 2 3) ^ (4 / 27 : ℝ) * (al s 4 / al t.mc 4) ^ (4 / 25 : ℝ) * f, ?_, ?_⟩, ?_⟩
  · have e1 : ∀ᶠ s in 𝓝[≠] (2:ℝ), t.mc < s := (lt_mem_nhds h1).filter_mono nhdsWithin_le_nhds
    have e2 : ∀ᶠ s in 𝓝[≠] (2:ℝ), s < t.mb := (gt_mem_nhds h2).filter_mono nhdsWithin_le_nhds
    filter_upwards [e1, e2, self_mem_nhdsWithin] with s a b c
    have c' : s ≠ 2 := c
    rw [C122_value al t ht, if_neg c', chain, if_neg (not_le.mpr a), if_pos b.le]
    norm_num
  · have c : ContinuousAt (fun s => (al t.mc 3 / al 2 3) ^ (4 / 27 : ℝ) * (al s 4 / al t.mc 4) ^ (4 / 25 : ℝ) * f) 2 := by
      refine ((continuousAt_const).mul ?_).mul continuousAt_const
      exact (hc.div_const _).rpow_const (Or.inl (div_pos (hp _ _) (hp _ _)).ne')
    exact c.tendsto.mono_left nhdsWithin_le_nhds
  · have e : (al 2 4 / al t.mc 4) ^ (4 / 25 : ℝ) = ((al t.mc 4 / al 2 4) ^ (4 / 25 : ℝ))⁻¹ := by
      rw [← Real.inv_rpow (div_pos (hp _ _) (hp _ _)).le, inv_div]
    have q : 0 < (al t.mc 4 / al 2 4) ^ (4 / 25 : ℝ) := Real.rpow_pos_of_pos (div_pos (hp _ _) (hp _ _)) _
    rw [e]
    constructor
    · intro h
      have h' : (al t.mc 3 / al 2 3) ^ (4 / 27 : ℝ) * ((al t.mc 4 / al 2 4) ^ (4 / 25 : ℝ))⁻¹ = 1 := by
        have := mul_right_cancel₀ hf (h.trans (one_mul f).symm); exact this
      field_simp at h'; exact h'
    · intro h; rw [h]; field_simp

/-- At the quark thresholds the chain is continuous: the flavour numbers on both sides give the same value there. -/
theorem C122_thresholds (al : ℝ → Nat → ℝ) (t : Thr) (ht : t.mc < t.mb ∧ t.mb < t.mt) (hp : ∀ s n, 0 < al s n)
    (hc : ∀ n ∈ [3, 4, 5, 6], Continuous (fun s => al s n)) : Continuous (chain al t) := by
  have R1 : ∀ a n, (al a n / al a n) ^ (4 / (33 - 2 * (n : ℝ))) = 1 := fun a n => by rw [div_self (hp a n).ne', Real.one_rpow]
  have Rc : ∀ a n, n ∈ [3, 4, 5, 6] → Continuous (fun s => (al s n / al a n) ^ (4 / (33 - 2 * (n : ℝ)))) := fun a n hn =>
    ((hc n hn).div_const _).rpow_const (fun s => Or.inl (div_pos (hp _ _) (hp _ _)).ne')
  unfold chain
  refine Continuous.if_le (Rc 2 3 (by simp)) (Continuous.if_le (continuous_const.mul (Rc t.mc 4 (by simp)))
    (Continuous.if_le (continuous_const.mul (Rc t.mb 5 (by simp))) (continuous_const.mul (Rc t.mt 6 (by simp))) continuous_id continuous_const ?_) continuous_id continuous_const ?_) continuous_id continuous_const ?_
  · intro s hs; subst hs; beta_reduce; rw [R1]; ring
  · intro s hs; subst hs
    beta_reduce; rw [if_pos ht.2.le, R1]; ring
  · intro s hs; subst hs
    beta_reduce; rw [if_pos ht.1.le, R1]; ring

/-- (FINDING) an explicit flavour number above the one natural at a low scale is ignored: at or below `mc` the result is
the three-flavour one for every `nf_out`, and at 2 GeV the input is returned for every `nf_out`. -/
theorem C122_nf_out_ignored (al : ℝ → Nat → ℝ) (t : Thr) (ht : t.mc < t.mb ∧ t.mb < t.mt) (f s : ℝ) (n : Option Nat) :
    (s ≤ t.mc → getFPerp al t f s n = getFPerp al t f s none) ∧ getFPerp al t f 2 n = some f := by
  refine ⟨fun h => ?_, by simp [getFPerp]⟩
  unfold getFPerp
  split_ifs with h2
  · rfl
  · have u3 : upStop t 3 s = s := by simp [upStop, Thr.at, h]
    simp only [fperpLoop, u3, ite_self, if_true, reduceCtorEq, if_false]

/-- An explicit flavour number is respected above the corresponding threshold: the last leg is run with it, directly to
the requested scale, however high that is. -/
theorem C122_nf_out_respected (al : ℝ → Nat → ℝ) (t : Thr) (f s : ℝ) (h2 : s ≠ 2) :
    getFPerp al t f s (some 3) = some ((al s 3 / al 2 3) ^ (4 / 27 : ℝ) * f)
    ∧ (t.mc < s → getFPerp al t f s (some 4) = some ((al s 4 / al t.mc 4) ^ (4 / 25 : ℝ) * ((al t.mc 3 / al 2 3) ^ (4 / 27 : ℝ) * f)))
    ∧ (t.mc < s → t.mb < s → getFPerp al t f s (some 5) = some ((al s 5 / al t.mb 5) ^ (4 / 23 : ℝ) *
        ((al t.mb 4 / al t.mc 4) ^ (4 / 25 : ℝ) * ((al t.mc 3 / al 2 3) ^ (4 / 27 : ℝ) * f)))) := by
  have u3 : t.mc < s → upStop t 3 s = t.mc := fun h => by simp [upStop, Thr.at, h.le]
  have u4 : t.mb < s → upStop t 4 s = t.mb := fun h => by simp [upStop, Thr.at, h.le]
  have a4 : t.at (3 + 1) = t.mc := rfl
  have a5 : t.at (4 + 1) = t.mb := rfl
  refine ⟨?_, fun h => ?_, fun h h' => ?_⟩
  · simp only [getFPerp, if_neg h2, fperpLoop, if_true, rgFactor]; norm_num
  · have n1 : t.mc ≠ s := h.ne
    have e : (some 4 = some 3) = False := by simp
    simp only [getFPerp, if_neg h2, fperpLoop, Option.some.injEq, u3 h, a4, rgFactor]; norm_num [n1]
  · have n1 : t.mc ≠ s := h.ne
    have n2 : t.mb ≠ s := h'.ne
    simp only [getFPerp, if_neg h2, fperpLoop, Option.some.injEq, u3 h, u4 h', a4, a5, rgFactor]; norm_num [n1, n2]

/-- The thresholds of the default configuration meet the hypotheses. -/
example : let t : Thr := ⟨1.3, 4.2, 160⟩; t.mc < t.mb ∧ t.mb < t.mt ∧ t.mc < 2 ∧ 2 < t.mb := by norm_num

end Verif.Rge
