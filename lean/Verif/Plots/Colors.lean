import Mathlib.Algebra.Order.Floor.Ring
import Mathlib.Algebra.Order.Archimedean.Real.Basic
import Mathlib.Tactic.Linarith
import Mathlib.Tactic.Ring
import Mathlib.Tactic.FieldSimp
import Mathlib.Tactic.Positivity
import Mathlib.Tactic.NormNum
import Mathlib.Tactic.LinearCombination
/-!
# `lighten_color` and `darken_color` of `flavio/plots/colors.py`

A colour is the triple of floats that `matplotlib.colors.to_rgb` returns for it (matplotlib's colour names are not
modelled); floats are real numbers.  Python's `colorsys.rgb_to_hls` and `hls_to_rgb`, which the code calls, are modelled as
in the standard library; `x % 1.0` is the fractional part.
-/
set_option linter.unusedVariables false
set_option linter.unusedSimpArgs false
namespace Verif.Colors

/-- A colour: red, green and blue.  /repo/flavio/plots/colors.py:61, 81. -/
@[ext] structure RGB where
  r : ℝ
  g : ℝ
  b : ℝ

/-- `max(r, g, b)` of `colorsys`, called at /repo/flavio/plots/colors.py:61, 81. -/
noncomputable def maxc (c : RGB) : ℝ := max (max c.r c.g) c.b
/-- `min(r, g, b)` of `colorsys`, called at /repo/flavio/plots/colors.py:61, 81. -/
noncomputable def minc (c : RGB) : ℝ := min (min c.r c.g) c.b

/-- The hue, six times and before `% 1.0`: the end of `colorsys.rgb_to_hls`, called at /repo/flavio/plots/colors.py:61, 81. -/
noncomputable def hue6 (c : RGB) : ℝ :=
  let d := maxc c - minc c
  let rc := (maxc c - c.r) / d
  let gc := (maxc c - c.g) / d
  let bc := (maxc c - c.b) / d
  if c.r = maxc c then bc - gc else if c.g = maxc c then 2 + rc - bc else 4 + gc - rc

/-- `colorsys.rgb_to_hls`, called at /repo/flavio/plots/colors.py:61, 81. -/
noncomputable def rgbToHls (c : RGB) : ℝ × ℝ × ℝ :=
  let l := (maxc c + minc c) / 2
  if minc c = maxc c then (0, l, 0)
  else (Int.fract (hue6 c / 6), l,
    if l ≤ 1 / 2 then (maxc c - minc c) / (maxc c + minc c) else (maxc c - minc c) / (2 - maxc c - minc c))

/-- `colorsys._v`, used by `hls_to_rgb`, called at /repo/flavio/plots/colors.py:62, 82. -/
noncomputable def v (m1 m2 hue : ℝ) : ℝ :=
  let h := Int.fract hue
  if h < 1 / 6 then m1 + (m2 - m1) * h * 6
  else if h < 1 / 2 then m2
  else if h < 2 / 3 then m1 + (m2 - m1) * (2 / 3 - h) * 6
  else m1

/-- `colorsys.hls_to_rgb`, called at /repo/flavio/plots/colors.py:62, 82. -/
noncomputable def hlsToRgb (h l s : ℝ) : RGB :=
  if s = 0 then ⟨l, l, l⟩
  else
    let m2 := if l ≤ 1 / 2 then l * (1 + s) else l + s - l * s
    let m1 := 2 * l - m2
    ⟨v m1 m2 (h + 1 / 3), v m1 m2 h, v m1 m2 (h - 1 / 3)⟩

/-- `lighten_color`.  /repo/flavio/plots/colors.py:45-62. -/
noncomputable def lighten (c : RGB) (amount : ℝ) : RGB :=
  let x := rgbToHls c
  hlsToRgb x.1 (1 - amount * (1 - x.2.1)) x.2.2

/-- `darken_color`.  /repo/flavio/plots/colors.py:65-82. -/
noncomputable def darken (c : RGB) (amount : ℝ) : RGB :=
  let x := rgbToHls c
  hlsToRgb x.1 (amount * x.2.1) x.2.2

/-! ## Specification: what a change of the lightness alone does -/

/-- A proper colour: three numbers between 0 and 1. (Specification.) -/
def Proper (c : RGB) : Prop := (0 ≤ c.r ∧ c.r ≤ 1) ∧ (0 ≤ c.g ∧ c.g ≤ 1) ∧ (0 ≤ c.b ∧ c.b ≤ 1)

/-- The lightness: the mean of the largest and the smallest channel. (Specification.) -/
noncomputable def lightness (c : RGB) : ℝ := (maxc c + minc c) / 2

/-- The largest spread of the channels at the given lightness. (Specification.) -/
noncomputable def room (l : ℝ) : ℝ := 1 - |2 * l - 1|

/-- Every channel keeps its place relative to the lightness, in units of the room there is. (Specification.) -/
noncomputable def relight (c : RGB) (l : ℝ) : RGB :=
  let k := room l / room (lightness c)
  ⟨l + k * (c.r - lightness c), l + k * (c.g - lightness c), l + k * (c.b - lightness c)⟩

/-! ## The two conversions -/

/-- The trapezoid of `_v`. (Specification.) -/
noncomputable def tri (x : ℝ) : ℝ := if x < 1 / 6 then x * 6 else if x < 1 / 2 then 1 else if x < 2 / 3 then (2 / 3 - x) * 6 else 0

theorem v_tri (m1 m2 h : ℝ) : v m1 m2 h = m1 + (m2 - m1) * tri (Int.fract h) := by
  unfold v tri
  simp only []
  split_ifs <;> ring

theorem tri_fract {x y : ℝ} (n : ℤ) (h0 : 0 ≤ y) (h1 : y ≤ 1) (h : x = y + n) : tri (Int.fract x) = tri y := by
  rw [h, Int.fract_add_intCast]
  rcases eq_or_lt_of_le h1 with rfl | hlt
  · rw [Int.fract_one]; unfold tri; norm_num
  · rw [Int.fract_eq_self.2 ⟨h0, hlt⟩]

theorem hue_tri (t c : ℝ) (k : ℤ) {y : ℝ} (h0 : 0 ≤ y) (h1 : y ≤ 1) (h : t / 6 + c = y + k) :
    tri (Int.fract (Int.fract (t / 6) + c)) = tri y := by
  refine tri_fract (k - ⌊t / 6⌋) h0 h1 ?_
  push_cast
  rw [← Int.self_sub_floor]
  linarith

theorem tri_up {y t : ℝ} (h : 6 * y = t) (h0 : 0 ≤ t) (h1 : t ≤ 1) : tri y = t := by
  unfold tri
  split_ifs <;> first | linarith

theorem tri_one {y : ℝ} (h0 : 1 / 6 ≤ y) (h1 : y ≤ 1 / 2) : tri y = 1 := by
  unfold tri
  split_ifs <;> first | rfl | linarith

theorem tri_down {y t : ℝ} (h : 4 - 6 * y = t) (h0 : 0 ≤ t) (h1 : t ≤ 1) : tri y = t := by
  unfold tri
  split_ifs <;> first | linarith

theorem tri_nil {y : ℝ} (h0 : 2 / 3 ≤ y) : tri y = 0 := by
  unfold tri
  split_ifs <;> first | rfl | linarith

/-- The three hues for channels given by their distances `a`, `b`, `c` from the largest one, in units of the spread. -/
theorem hue_cases (a b c : ℝ) (ha : 0 ≤ a ∧ a ≤ 1) (hb : 0 ≤ b ∧ b ≤ 1) (hc : 0 ≤ c ∧ c ≤ 1)
    (hmin : a = 1 ∨ b = 1 ∨ c = 1) (hmax : a = 0 ∨ b = 0 ∨ c = 0)
    (t : ℝ) (ht : t = if a = 0 then c - b else if b = 0 then 2 + a - c else 4 + b - a) :
    tri (Int.fract (Int.fract (t / 6) + 1 / 3)) = 1 - a ∧ tri (Int.fract (Int.fract (t / 6))) = 1 - b
      ∧ tri (Int.fract (Int.fract (t / 6) - 1 / 3)) = 1 - c := by
  have e0 : ∀ s : ℝ, tri (Int.fract s) = tri (Int.fract (s + 0)) := fun s => by rw [add_zero]
  rw [e0 (Int.fract (t / 6)), sub_eq_add_neg (Int.fract (t / 6))]
  by_cases h1 : a = 0
  · rw [if_pos h1] at ht
    rcases hmin with h | h | h
    · exact absurd (h.symm.trans h1) one_ne_zero
    · refine ⟨?_, ?_, ?_⟩
      · rw [hue_tri t (1 / 3) 0 (y := t / 6 + 1 / 3) (by linarith) (by linarith) (by push_cast; ring), tri_one (by linarith) (by linarith)]; linarith
      · rw [hue_tri t 0 (-1) (y := t / 6 + 1) (by linarith) (by linarith) (by push_cast; ring), tri_nil (by linarith)]; linarith
      · rw [hue_tri t (-(1 / 3)) (-1) (y := t / 6 + 2 / 3) (by linarith) (by linarith) (by push_cast; ring)]
        exact tri_down (by linarith) (by linarith) (by linarith)
    · refine ⟨?_, ?_, ?_⟩
      · rw [hue_tri t (1 / 3) 0 (y := t / 6 + 1 / 3) (by linarith) (by linarith) (by push_cast; ring), tri_one (by linarith) (by linarith)]; linarith
      · rw [hue_tri t 0 0 (y := t / 6) (by linarith) (by linarith) (by push_cast; ring)]
        exact tri_up (by linarith) (by linarith) (by linarith)
      · rw [hue_tri t (-(1 / 3)) (-1) (y := t / 6 + 2 / 3) (by linarith) (by linarith) (by push_cast; ring), tri_nil (by linarith)]; linarith
  rw [if_neg h1] at ht
  by_cases h2 : b = 0
  · rw [if_pos h2] at ht
    rcases hmin with h | h | h
    · refine ⟨?_, ?_, ?_⟩
      · rw [hue_tri t (1 / 3) 0 (y := t / 6 + 1 / 3) (by linarith) (by linarith) (by push_cast; ring), tri_nil (by linarith)]; linarith
      · rw [hue_tri t 0 0 (y := t / 6) (by linarith) (by linarith) (by push_cast; ring), tri_one (by linarith) (by linarith)]; linarith
      · rw [hue_tri t (-(1 / 3)) 0 (y := t / 6 - 1 / 3) (by linarith) (by linarith) (by push_cast; ring)]
        exact tri_up (by linarith) (by linarith) (by linarith)
    · exact absurd (h.symm.trans h2) one_ne_zero
    · refine ⟨?_, ?_, ?_⟩
      · rw [hue_tri t (1 / 3) 0 (y := t / 6 + 1 / 3) (by linarith) (by linarith) (by push_cast; ring)]
        exact tri_down (by linarith) (by linarith) (by linarith)
      · rw [hue_tri t 0 0 (y := t / 6) (by linarith) (by linarith) (by push_cast; ring), tri_one (by linarith) (by linarith)]; linarith
      · rw [hue_tri t (-(1 / 3)) (-1) (y := t / 6 + 2 / 3) (by linarith) (by linarith) (by push_cast; ring), tri_nil (by linarith)]; linarith
  rw [if_neg h2] at ht
  have h3 : c = 0 := (hmax.resolve_left h1).resolve_left h2
  rcases hmin with h | h | h
  · refine ⟨?_, ?_, ?_⟩
    · rw [hue_tri t (1 / 3) 0 (y := t / 6 + 1 / 3) (by linarith) (by linarith) (by push_cast; ring), tri_nil (by linarith)]; linarith
    · rw [hue_tri t 0 0 (y := t / 6) (by linarith) (by linarith) (by push_cast; ring)]
      exact tri_down (by linarith) (by linarith) (by linarith)
    · rw [hue_tri t (-(1 / 3)) 0 (y := t / 6 - 1 / 3) (by linarith) (by linarith) (by push_cast; ring), tri_one (by linarith) (by linarith)]; linarith
  · refine ⟨?_, ?_, ?_⟩
    · rw [hue_tri t (1 / 3) 1 (y := t / 6 - 2 / 3) (by linarith) (by linarith) (by push_cast; ring)]
      exact tri_up (by linarith) (by linarith) (by linarith)
    · rw [hue_tri t 0 0 (y := t / 6) (by linarith) (by linarith) (by push_cast; ring), tri_nil (by linarith)]; linarith
    · rw [hue_tri t (-(1 / 3)) 0 (y := t / 6 - 1 / 3) (by linarith) (by linarith) (by push_cast; ring), tri_one (by linarith) (by linarith)]; linarith
  · exact absurd (h.symm.trans h3) one_ne_zero

theorem le_max (c : RGB) : c.r ≤ maxc c ∧ c.g ≤ maxc c ∧ c.b ≤ maxc c :=
  ⟨(le_max_left _ _).trans (le_max_left _ _), (le_max_right _ _).trans (le_max_left _ _), le_max_right _ _⟩

theorem min_le (c : RGB) : minc c ≤ c.r ∧ minc c ≤ c.g ∧ minc c ≤ c.b :=
  ⟨(min_le_left _ _).trans (min_le_left _ _), (min_le_left _ _).trans (min_le_right _ _), min_le_right _ _⟩

theorem max_cases (c : RGB) : c.r = maxc c ∨ c.g = maxc c ∨ c.b = maxc c := by
  unfold maxc
  rcases max_choice (max c.r c.g) c.b with h | h
  · rw [h]; rcases max_choice c.r c.g with h' | h' <;> rw [h'] <;> simp
  · rw [h]; simp

theorem min_cases (c : RGB) : c.r = minc c ∨ c.g = minc c ∨ c.b = minc c := by
  unfold minc
  rcases min_choice (min c.r c.g) c.b with h | h
  · rw [h]; rcases min_choice c.r c.g with h' | h' <;> rw [h'] <;> simp
  · rw [h]; simp

theorem min_le_max (c : RGB) : minc c ≤ maxc c := (min_le c).1.trans (le_max c).1

theorem proper_bounds {c : RGB} (hc : Proper c) : 0 ≤ minc c ∧ maxc c ≤ 1 := by
  obtain ⟨⟨a, b⟩, ⟨d, e⟩, ⟨f, g⟩⟩ := hc
  exact ⟨le_min (le_min a d) f, max_le (max_le b e) g⟩

theorem hue_spec (c : RGB) (h : minc c ≠ maxc c) :
    tri (Int.fract (Int.fract (hue6 c / 6) + 1 / 3)) = (c.r - minc c) / (maxc c - minc c)
      ∧ tri (Int.fract (Int.fract (hue6 c / 6))) = (c.g - minc c) / (maxc c - minc c)
      ∧ tri (Int.fract (Int.fract (hue6 c / 6) - 1 / 3)) = (c.b - minc c) / (maxc c - minc c) := by
  have hd : 0 < maxc c - minc c := sub_pos.2 (lt_of_le_of_ne (min_le_max c) h)
  have hne := hd.ne'
  obtain ⟨m1, m2, m3⟩ := le_max c
  obtain ⟨n1, n2, n3⟩ := min_le c
  have bd : ∀ x : ℝ, minc c ≤ x → x ≤ maxc c → 0 ≤ (maxc c - x) / (maxc c - minc c) ∧ (maxc c - x) / (maxc c - minc c) ≤ 1 := fun x h1 h2 =>
    ⟨div_nonneg (by linarith) hd.le, (div_le_one hd).2 (by linarith)⟩
  have z : ∀ x : ℝ, (maxc c - x) / (maxc c - minc c) = 0 ↔ x = maxc c := fun x => by
    rw [div_eq_zero_iff, or_iff_left hne, sub_eq_zero, eq_comm]
  have o : ∀ x : ℝ, x = minc c → (maxc c - x) / (maxc c - minc c) = 1 := fun x hx => by rw [hx, div_self hne]
  have f : ∀ x : ℝ, (x - minc c) / (maxc c - minc c) = 1 - (maxc c - x) / (maxc c - minc c) := fun x => by
    field_simp; ring
  rw [f, f, f]
  refine hue_cases _ _ _ (bd _ n1 m1) (bd _ n2 m2) (bd _ n3 m3) ?_ ?_ _ ?_
  · exact (min_cases c).imp (o _) (Or.imp (o _) (o _))
  · exact (max_cases c).imp (z _).2 (Or.imp (z _).2 (z _).2)
  · unfold hue6
    simp only [z]

theorem room_lo {l : ℝ} (h : l ≤ 1 / 2) : room l = 2 * l := by
  unfold room; rw [abs_of_nonpos (by linarith)]; ring

theorem room_hi {l : ℝ} (h : 1 / 2 ≤ l) : room l = 2 - 2 * l := by
  unfold room; rw [abs_of_nonneg (by linarith)]; ring

theorem relight_gray (c : RGB) (l : ℝ) (h : minc c = maxc c) : relight c l = ⟨l, l, l⟩ := by
  obtain ⟨m1, m2, m3⟩ := le_max c
  obtain ⟨n1, n2, n3⟩ := min_le c
  have e : lightness c = maxc c := by unfold lightness; rw [h]; ring
  unfold relight
  rw [e]
  rw [h] at n1 n2 n3
  rw [le_antisymm m1 n1, le_antisymm m2 n2, le_antisymm m3 n3]
  simp

/-- Going to hue, lightness and saturation, replacing the lightness, and coming back. -/
theorem roundtrip (c : RGB) (hc : Proper c) (l : ℝ) : hlsToRgb (rgbToHls c).1 l (rgbToHls c).2.2 = relight c l := by
  by_cases h : minc c = maxc c
  · rw [relight_gray c l h]
    unfold rgbToHls hlsToRgb
    simp [h]
  have hd : 0 < maxc c - minc c := sub_pos.2 (lt_of_le_of_ne (min_le_max c) h)
  obtain ⟨b0, b1⟩ := proper_bounds hc
  have hr : 0 < room (lightness c) := by
    rcases le_total (lightness c) (1 / 2) with hl | hl
    · rw [room_lo hl]; unfold lightness; linarith
    · rw [room_hi hl]; unfold lightness; linarith
  have hs : (rgbToHls c).2.2 = (maxc c - minc c) / room (lightness c) := by
    unfold rgbToHls
    rw [if_neg h]
    show (if (maxc c + minc c) / 2 ≤ 1 / 2 then _ else _) = _
    by_cases hl : (maxc c + minc c) / 2 ≤ 1 / 2
    · rw [if_pos hl, room_lo (l := lightness c) hl]; unfold lightness; congr 1; ring
    · rw [if_neg hl, room_hi (l := lightness c) (le_of_not_ge hl)]; unfold lightness; congr 1; ring
  have hh : (rgbToHls c).1 = Int.fract (hue6 c / 6) := by
    unfold rgbToHls; rw [if_neg h]
  rw [hs, hh]
  have hs0 : (maxc c - minc c) / room (lightness c) ≠ 0 := (div_pos hd hr).ne'
  generalize hS : (maxc c - minc c) / room (lightness c) = s at hs0
  have hm : (if l ≤ 1 / 2 then l * (1 + s) else l + s - l * s) = l + s * room l / 2 := by
    by_cases hl : l ≤ 1 / 2
    · rw [if_pos hl, room_lo hl]; ring
    · rw [if_neg hl, room_hi (le_of_not_ge hl)]; ring
  unfold hlsToRgb
  rw [if_neg hs0]
  simp only [hm, v_tri]
  obtain ⟨t1, t2, t3⟩ := hue_spec c h
  rw [t1, t2, t3, ← hS]
  have hr' := hr.ne'
  have hd' := hd.ne'
  have fin : ∀ x : ℝ, 2 * l - (l + (maxc c - minc c) / room (lightness c) * room l / 2)
      + (l + (maxc c - minc c) / room (lightness c) * room l / 2 - (2 * l - (l + (maxc c - minc c) / room (lightness c) * room l / 2)))
        * ((x - minc c) / (maxc c - minc c))
      = l + room l / room (lightness c) * (x - lightness c) := fun x => by
    rw [show lightness c = (maxc c + minc c) / 2 from rfl] at hr' ⊢
    field_simp
    ring
  unfold relight
  rw [fin, fin, fin]

/-! ## The properties -/

theorem rgb_l (c : RGB) : (rgbToHls c).2.1 = lightness c := by
  unfold rgbToHls lightness
  split_ifs <;> rfl

/-- **C167 (lightening).** The lightened colour is the colour with its distance from full lightness multiplied by the amount, hue
and saturation kept. -/
theorem C167_lighten (c : RGB) (hc : Proper c) (a : ℝ) : lighten c a = relight c (1 - a * (1 - lightness c)) :=
  (roundtrip c hc _).symm.trans (by simp only [lighten, rgb_l]) |>.symm

/-- **C167 (darkening).** The darkened colour is the colour with its lightness multiplied by the amount. -/
theorem C167_darken (c : RGB) (hc : Proper c) (a : ℝ) : darken c a = relight c (a * lightness c) :=
  (roundtrip c hc _).symm.trans (by simp only [darken, rgb_l]) |>.symm

theorem light_bounds {c : RGB} (hc : Proper c) : 0 ≤ lightness c ∧ lightness c ≤ 1 := by
  obtain ⟨b0, b1⟩ := proper_bounds hc
  have := min_le_max c
  unfold lightness
  constructor <;> linarith

theorem room_nonneg {l : ℝ} (h0 : 0 ≤ l) (h1 : l ≤ 1) : 0 ≤ room l := by
  rcases le_total l (1 / 2) with h | h
  · rw [room_lo h]; linarith
  · rw [room_hi h]; linarith

/-- No room: the colour is black or white. -/
theorem gray_of_room {c : RGB} (hc : Proper c) (h : room (lightness c) = 0) : minc c = maxc c := by
  obtain ⟨b0, b1⟩ := proper_bounds hc
  have hm := min_le_max c
  rcases le_total (lightness c) (1 / 2) with hl | hl
  · rw [room_lo hl] at h; unfold lightness at h; linarith
  · rw [room_hi hl] at h; unfold lightness at h; linarith

theorem chan {c : RGB} (hc : Proper c) : (minc c ≤ c.r ∧ c.r ≤ maxc c) ∧ (minc c ≤ c.g ∧ c.g ≤ maxc c) ∧ (minc c ≤ c.b ∧ c.b ≤ maxc c) :=
  ⟨⟨(min_le c).1, (le_max c).1⟩, ⟨(min_le c).2.1, (le_max c).2.1⟩, ⟨(min_le c).2.2, (le_max c).2.2⟩⟩

/-- The distance of a channel from the lightness is at most half the room. -/
theorem chan_room {c : RGB} (hc : Proper c) {x : ℝ} (h1 : minc c ≤ x) (h2 : x ≤ maxc c) : |x - lightness c| ≤ room (lightness c) / 2 := by
  obtain ⟨b0, b1⟩ := proper_bounds hc
  rw [abs_le]
  rcases le_total (lightness c) (1 / 2) with hl | hl
  · rw [room_lo hl]; unfold lightness; constructor <;> linarith
  · rw [room_hi hl]; unfold lightness at hl ⊢; constructor <;> linarith

theorem relight_chan {c : RGB} (hc : Proper c) {l : ℝ} (h0 : 0 ≤ l) (h1 : l ≤ 1) {x : ℝ} (hx1 : minc c ≤ x) (hx2 : x ≤ maxc c) :
    0 ≤ l + room l / room (lightness c) * (x - lightness c) ∧ l + room l / room (lightness c) * (x - lightness c) ≤ 1 := by
  obtain ⟨l0, l1⟩ := light_bounds hc
  have hr := room_nonneg h0 h1
  have hq := room_nonneg l0 l1
  have hb := chan_room hc hx1 hx2
  have key : |room l / room (lightness c) * (x - lightness c)| ≤ room l / 2 := by
    rw [abs_mul, abs_of_nonneg (div_nonneg hr hq)]
    rcases hq.eq_or_lt with h | h
    · rw [← h, div_zero, zero_mul]; linarith
    · rw [div_mul_eq_mul_div, div_le_iff₀ h]
      nlinarith
  have h2 : room l / 2 ≤ l ∧ room l / 2 ≤ 1 - l := by
    rcases le_total l (1 / 2) with h | h
    · rw [room_lo h]; constructor <;> linarith
    · rw [room_hi h]; constructor <;> linarith
  rw [abs_le] at key
  constructor <;> linarith [key.1, key.2, h2.1, h2.2]

theorem relight_proper {c : RGB} (hc : Proper c) {l : ℝ} (h0 : 0 ≤ l) (h1 : l ≤ 1) : Proper (relight c l) := by
  obtain ⟨⟨r1, r2⟩, ⟨g1, g2⟩, ⟨b1, b2⟩⟩ := chan hc
  exact ⟨relight_chan hc h0 h1 r1 r2, relight_chan hc h0 h1 g1 g2, relight_chan hc h0 h1 b1 b2⟩

theorem light_lighten {c : RGB} (hc : Proper c) {a : ℝ} (h0 : 0 ≤ a) (h1 : a ≤ 1) :
    0 ≤ 1 - a * (1 - lightness c) ∧ 1 - a * (1 - lightness c) ≤ 1 := by
  obtain ⟨l0, l1⟩ := light_bounds hc
  have h2 : 0 ≤ a * (1 - lightness c) := mul_nonneg h0 (by linarith)
  have h3 : a * (1 - lightness c) ≤ 1 := mul_le_one₀ h1 (by linarith) (by linarith)
  constructor <;> linarith

theorem light_darken {c : RGB} (hc : Proper c) {a : ℝ} (h0 : 0 ≤ a) (h1 : a ≤ 1) : 0 ≤ a * lightness c ∧ a * lightness c ≤ 1 := by
  obtain ⟨l0, l1⟩ := light_bounds hc
  exact ⟨mul_nonneg h0 l0, mul_le_one₀ h1 l0 l1⟩

/-- **C167 (always a colour).** For an amount between 0 and 1 the result is again a proper colour, which matplotlib accepts. -/
theorem C167_proper (c : RGB) (hc : Proper c) (a : ℝ) (h0 : 0 ≤ a) (h1 : a ≤ 1) : Proper (lighten c a) ∧ Proper (darken c a) := by
  rw [C167_lighten c hc, C167_darken c hc]
  exact ⟨relight_proper hc (light_lighten hc h0 h1).1 (light_lighten hc h0 h1).2,
    relight_proper hc (light_darken hc h0 h1).1 (light_darken hc h0 h1).2⟩

theorem relight_self {c : RGB} (hc : Proper c) : relight c (lightness c) = c := by
  by_cases h : minc c = maxc c
  · rw [relight_gray c _ h]
    obtain ⟨⟨r1, r2⟩, ⟨g1, g2⟩, ⟨b1, b2⟩⟩ := chan hc
    have e : lightness c = maxc c := by unfold lightness; rw [h]; ring
    rw [h] at r1 g1 b1
    ext <;> simp only [e] <;> linarith
  · have hr : room (lightness c) ≠ 0 := fun h' => h (gray_of_room hc h')
    unfold relight
    simp only [div_self hr]
    ext <;> simp

/-- **C167 (amount 1).** Nothing changes: the trip through hue, lightness and saturation is exact. -/
theorem C167_identity (c : RGB) (hc : Proper c) : lighten c 1 = c ∧ darken c 1 = c := by
  rw [C167_lighten c hc, C167_darken c hc, one_mul, one_mul, sub_sub_cancel, relight_self hc]
  exact ⟨rfl, rfl⟩

/-- **C167 (amount 0).** White and black. -/
theorem C167_extremes (c : RGB) (hc : Proper c) : lighten c 0 = ⟨1, 1, 1⟩ ∧ darken c 0 = ⟨0, 0, 0⟩ := by
  rw [C167_lighten c hc, C167_darken c hc, zero_mul, zero_mul, sub_zero]
  unfold relight
  rw [show room 1 = 0 by unfold room; norm_num, show room 0 = 0 by unfold room; norm_num]
  simp

theorem relight_light {c : RGB} (hc : Proper c) {l : ℝ} (h0 : 0 ≤ l) (h1 : l ≤ 1) : lightness (relight c l) = l := by
  obtain ⟨l0, l1⟩ := light_bounds hc
  have hk : 0 ≤ room l / room (lightness c) := div_nonneg (room_nonneg h0 h1) (room_nonneg l0 l1)
  have mono : Monotone fun x : ℝ => l + room l / room (lightness c) * (x - lightness c) := fun x y h => by
    have := mul_le_mul_of_nonneg_left (sub_le_sub_right h (lightness c)) hk
    simpa using this
  have e1 : maxc (relight c l) = l + room l / room (lightness c) * (maxc c - lightness c) := by
    unfold maxc relight
    show max (max _ _) _ = _
    rw [← mono.map_max, ← mono.map_max]
  have e2 : minc (relight c l) = l + room l / room (lightness c) * (minc c - lightness c) := by
    unfold minc relight
    show min (min _ _) _ = _
    rw [← mono.map_min, ← mono.map_min]
  have e3 : maxc c - lightness c + (minc c - lightness c) = 0 := by unfold lightness; ring
  show (maxc (relight c l) + minc (relight c l)) / 2 = l
  rw [e1, e2]
  linear_combination room l / room (lightness c) / 2 * e3

/-- **C167 (the lightness).** That of the result is what the amount says. -/
theorem C167_lightness (c : RGB) (hc : Proper c) (a : ℝ) (h0 : 0 ≤ a) (h1 : a ≤ 1) :
    1 - lightness (lighten c a) = a * (1 - lightness c) ∧ lightness (darken c a) = a * lightness c := by
  rw [C167_lighten c hc, C167_darken c hc, relight_light hc (light_lighten hc h0 h1).1 (light_lighten hc h0 h1).2,
    relight_light hc (light_darken hc h0 h1).1 (light_darken hc h0 h1).2, sub_sub_cancel]
  exact ⟨rfl, rfl⟩

theorem room_zero {l : ℝ} (h : room l = 0) : l = 0 ∨ l = 1 := by
  rcases le_total l (1 / 2) with h' | h'
  · rw [room_lo h'] at h; left; linarith
  · rw [room_hi h'] at h; right; linarith

theorem relight_relight {c : RGB} (hc : Proper c) {l m : ℝ} (h0 : 0 ≤ l) (h1 : l ≤ 1) (hz : room l = 0 → room m = 0 ∨ room (lightness c) = 0) :
    relight (relight c l) m = relight c m := by
  have e := relight_light hc h0 h1
  show RGB.mk _ _ _ = RGB.mk _ _ _
  rw [e]
  have key : ∀ x : ℝ, m + room m / room l * (l + room l / room (lightness c) * (x - lightness c) - l)
      = m + room m / room (lightness c) * (x - lightness c) := fun x => by
    by_cases hl : room l = 0
    · rcases hz hl with h | h <;> simp [hl, h]
    · field_simp
      ring
  unfold relight
  rw [key, key, key]

/-- **C167 (composition).** Lightening twice multiplies the amounts, and so does darkening twice. -/
theorem C167_compose (c : RGB) (hc : Proper c) (a b : ℝ) (h0 : 0 ≤ a) (h1 : a ≤ 1) (k0 : 0 ≤ b) (k1 : b ≤ 1) :
    lighten (lighten c a) b = lighten c (a * b) ∧ darken (darken c a) b = darken c (a * b) := by
  obtain ⟨p1, p2⟩ := C167_proper c hc a h0 h1
  obtain ⟨q1, q2⟩ := C167_lightness c hc a h0 h1
  have la := light_lighten hc h0 h1
  have da := light_darken hc h0 h1
  obtain ⟨l0, l1⟩ := light_bounds hc
  rw [C167_lighten _ p1, C167_darken _ p2, q1, q2, C167_lighten c hc, C167_darken c hc, C167_lighten c hc, C167_darken c hc]
  rw [show b * (a * (1 - lightness c)) = a * b * (1 - lightness c) by ring, show b * (a * lightness c) = a * b * lightness c by ring]
  refine ⟨relight_relight hc la.1 la.2 fun h => ?_, relight_relight hc da.1 da.2 fun h => ?_⟩
  · rcases room_zero h with h | h
    · right
      have : lightness c = 0 := by nlinarith
      rw [this]; unfold room; norm_num
    · left
      have h' : a * (1 - lightness c) = 0 := by linarith
      rw [show a * b * (1 - lightness c) = 0 by linear_combination b * h']; unfold room; norm_num
  · rcases room_zero h with h | h
    · left
      rw [show a * b * lightness c = 0 by linear_combination b * h]; unfold room; norm_num
    · right
      have : lightness c = 1 := by nlinarith
      rw [this]; unfold room; norm_num

/-- **C167 (light colours).** For a colour at least half light, lightening is mixing with white. -/
theorem C167_mix_white (c : RGB) (hc : Proper c) (a : ℝ) (h0 : 0 ≤ a) (h1 : a ≤ 1) (hl : 1 / 2 ≤ lightness c) :
    lighten c a = ⟨(1 - a) * 1 + a * c.r, (1 - a) * 1 + a * c.g, (1 - a) * 1 + a * c.b⟩ := by
  rw [C167_lighten c hc]
  obtain ⟨l0, l1⟩ := light_bounds hc
  have hr : room (1 - a * (1 - lightness c)) = a * room (lightness c) := by
    rw [room_hi hl, room_hi (by nlinarith)]; ring
  have key : ∀ x, minc c ≤ x → x ≤ maxc c → 1 - a * (1 - lightness c) + room (1 - a * (1 - lightness c)) / room (lightness c) * (x - lightness c)
      = (1 - a) * 1 + a * x := fun x x1 x2 => by
    rw [hr]
    by_cases hz : room (lightness c) = 0
    · have := gray_of_room hc hz
      have e : x = lightness c := by unfold lightness; linarith
      rw [e]; ring
    · rw [mul_div_cancel_right₀ _ hz]; ring
  obtain ⟨⟨r1, r2⟩, ⟨g1, g2⟩, ⟨b1, b2⟩⟩ := chan hc
  simp only [relight, key _ r1 r2, key _ g1 g2, key _ b1 b2]

/-- **C167 (dark colours).** For a colour at most half light, darkening multiplies every channel by the amount. -/
theorem C167_mix_black (c : RGB) (hc : Proper c) (a : ℝ) (h0 : 0 ≤ a) (h1 : a ≤ 1) (hl : lightness c ≤ 1 / 2) :
    darken c a = ⟨a * c.r, a * c.g, a * c.b⟩ := by
  rw [C167_darken c hc]
  obtain ⟨l0, l1⟩ := light_bounds hc
  have hr : room (a * lightness c) = a * room (lightness c) := by
    rw [room_lo hl, room_lo (by nlinarith)]; ring
  have key : ∀ x, minc c ≤ x → x ≤ maxc c → a * lightness c + room (a * lightness c) / room (lightness c) * (x - lightness c) = a * x :=
    fun x x1 x2 => by
    rw [hr]
    by_cases hz : room (lightness c) = 0
    · have := gray_of_room hc hz
      have e : x = lightness c := by unfold lightness; linarith
      rw [e]; ring
    · rw [mul_div_cancel_right₀ _ hz]; ring
  obtain ⟨⟨r1, r2⟩, ⟨g1, g2⟩, ⟨b1, b2⟩⟩ := chan hc
  simp only [relight, key _ r1 r2, key _ g1 g2, key _ b1 b2]

/-- The complementary colour. (Specification.) -/
def invert (c : RGB) : RGB := ⟨1 - c.r, 1 - c.g, 1 - c.b⟩

/-- **C167 (duality).** Darkening is lightening of the complementary colour. -/
theorem C167_dual (c : RGB) (hc : Proper c) (a : ℝ) : lighten (invert c) a = invert (darken c a) := by
  have hi : Proper (invert c) := by
    obtain ⟨⟨a, b⟩, ⟨d, e⟩, ⟨f, g⟩⟩ := hc
    refine ⟨⟨?_, ?_⟩, ⟨?_, ?_⟩, ⟨?_, ?_⟩⟩ <;> simp only [invert] <;> linarith
  have anti : Antitone fun x : ℝ => 1 - x := fun x y h => sub_le_sub_left h 1
  have e1 : maxc (invert c) = 1 - minc c := by
    unfold maxc minc invert
    show max (max _ _) _ = _
    rw [← anti.map_min, ← anti.map_min]
  have e2 : minc (invert c) = 1 - maxc c := by
    unfold maxc minc invert
    show min (min _ _) _ = _
    rw [← anti.map_max, ← anti.map_max]
  have e : lightness (invert c) = 1 - lightness c := by unfold lightness; rw [e1, e2]; ring
  have hroom : ∀ l, room (1 - l) = room l := fun l => by
    unfold room; rw [show 2 * (1 - l) - 1 = -(2 * l - 1) by ring, abs_neg]
  rw [C167_lighten _ hi, C167_darken c hc]
  unfold relight
  rw [e, sub_sub_cancel, hroom, hroom]
  ext <;> simp only [invert] <;> ring

/-- The documentation's third example: `lighten_color((.3, .55, .1), 0.5)`. -/
example : Proper ⟨3 / 10, 11 / 20, 1 / 10⟩ ∧ lightness ⟨3 / 10, 11 / 20, 1 / 10⟩ = 13 / 40 := by
  unfold Proper lightness maxc minc
  norm_num [max_def, min_def]

end Verif.Colors
