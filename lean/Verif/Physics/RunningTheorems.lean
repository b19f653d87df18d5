import Verif.Physics.Running
import Mathlib.Tactic.Linarith
import Mathlib.Tactic.FieldSimp

/-!
# Property theorems about RG evolution (C62) and the running fine-structure constant (C63)
-/
set_option linter.unusedSectionVars false
set_option linter.unusedSimpArgs false
set_option linter.unusedVariables false
namespace Verif.Running
open Verif.Py

variable {X : Type}

/-- The thresholds are ordered, as in the default configuration. (Specification.) -/
structure Thr.Ordered (t : Thr) : Prop where
  c : 1 / 10 < t.mc
  b : t.mc < t.mb
  t : t.mb < t.mt

/-- What is assumed of the solution of a differential equation: the group law of its flow. (Specification.) -/
structure IsFlow (flow : Nat → ℝ → ℝ → X → X) : Prop where
  refl : ∀ nf s x, flow nf s s x = x
  trans : ∀ nf a b c x, flow nf b c (flow nf a b x) = flow nf a c x

/-! ## C62: specification -/

/-- The energy range in which `nf` flavours are active. (Specification.) -/
def InRange (t : Thr) (nf : Nat) (s : ℝ) : Prop :=
  (nf = 3 ∧ s ≤ t.mc) ∨ (nf = 4 ∧ t.mc ≤ s ∧ s ≤ t.mb) ∨ (nf = 5 ∧ t.mb ≤ s ∧ s ≤ t.mt) ∨
  (nf = 6 ∧ t.mt ≤ s)

/-! ## Proof of C62 -/

/-- Evolution to the reference scale `mb`. (Specification.) -/
noncomputable def toMb (flow : Nat → ℝ → ℝ → X → X) (t : Thr) (a : ℝ) (x : X) : X :=
  if a ≤ t.mc then flow 4 t.mc t.mb (flow 3 a t.mc x)
  else if a ≤ t.mb then flow 4 a t.mb x
  else if a ≤ t.mt then flow 5 a t.mb x
  else flow 5 t.mt t.mb (flow 6 a t.mt x)

/-- Evolution from the reference scale `mb`. (Specification.) -/
noncomputable def fromMb (flow : Nat → ℝ → ℝ → X → X) (t : Thr) (c : ℝ) (x : X) : X :=
  if c ≤ t.mc then flow 3 t.mc c (flow 4 t.mb t.mc x)
  else if c ≤ t.mb then flow 4 t.mb c x
  else if c ≤ t.mt then flow 5 t.mb c x
  else flow 6 t.mt c (flow 5 t.mb t.mt x)

theorem from_to (flow : Nat → ℝ → ℝ → X → X) (hf : IsFlow flow) (t : Thr) (a : ℝ) (x : X) :
    toMb flow t a (fromMb flow t a x) = x := by
  unfold toMb fromMb
  split_ifs <;> simp [hf.trans, hf.refl]

theorem to_from (flow : Nat → ℝ → ℝ → X → X) (hf : IsFlow flow) (t : Thr) (a : ℝ) (x : X) :
    fromMb flow t a (toMb flow t a x) = x := by
  unfold toMb fromMb
  split_ifs <;> simp [hf.trans, hf.refl]

section steps
variable (flow : Nat → ℝ → ℝ → X → X) (t : Thr) (sIn sOut : ℝ)

theorem down_skip {nf : Nat} {nfOut : Option Nat} {l x s last} (h : sIn ≤ t.at nf) :
    down flow t sIn sOut nfOut (nf :: l) x s last = down flow t sIn sOut nfOut l x s last := by
  conv_lhs => unfold down
  rw [if_pos h]

theorem down_direct {nf : Nat} {l x s last} (h : t.at nf < sIn) :
    down flow t sIn sOut (some nf) (nf :: l) x s last = .ok (flow nf s sOut x) := by
  conv_lhs => unfold down
  rw [if_neg (not_le.2 h)]
  simp

theorem down_stop {nf : Nat} {nfOut : Option Nat} {l x s last} (h : t.at nf < sIn) (h' : t.at nf ≤ sOut) :
    down flow t sIn sOut nfOut (nf :: l) x s last = .ok (flow nf s sOut x) := by
  conv_lhs => unfold down
  rw [if_neg (not_le.2 h), max_eq_right h']
  simp

theorem down_go {nf : Nat} {nfOut : Option Nat} {l x s last} (hn : nfOut ≠ some nf) (h : t.at nf < sIn)
    (h' : sOut < t.at nf) :
    down flow t sIn sOut nfOut (nf :: l) x s last =
      down flow t sIn sOut nfOut l (flow nf s (t.at nf) x) (t.at nf) (some (flow nf s (t.at nf) x)) := by
  conv_lhs => unfold down
  rw [if_neg (not_le.2 h), max_eq_left h'.le, if_neg hn]
  simp [h'.ne']

theorem up_skip {nf : Nat} {l x s last} (hn : nf < 6) (h : t.at (nf + 1) ≤ sIn) :
    up flow t sIn sOut (nf :: l) x s last = up flow t sIn sOut l x s last := by
  conv_lhs => unfold up
  rw [if_pos ⟨hn, h⟩]

theorem up_stop {nf : Nat} {l x s last} (hn : nf < 6) (h : sIn < t.at (nf + 1)) (h' : sOut ≤ t.at (nf + 1)) :
    up flow t sIn sOut (nf :: l) x s last = .ok (flow nf s sOut x) := by
  conv_lhs => unfold up
  rw [if_neg (by rintro ⟨-, h1⟩; linarith)]
  simp [upStop, hn, min_eq_right h']

theorem up_stop6 {l x s last} :
    up flow t sIn sOut (6 :: l) x s last = .ok (flow 6 s sOut x) := by
  conv_lhs => unfold up
  rw [if_neg (by rintro ⟨h1, -⟩; omega)]
  simp [upStop]

theorem up_go {nf : Nat} {l x s last} (hn : nf < 6) (h : sIn < t.at (nf + 1)) (h' : t.at (nf + 1) < sOut) :
    up flow t sIn sOut (nf :: l) x s last =
      up flow t sIn sOut l (flow nf s (t.at (nf + 1)) x) (t.at (nf + 1))
        (some (flow nf s (t.at (nf + 1)) x)) := by
  conv_lhs => unfold up
  rw [if_neg (by rintro ⟨-, h1⟩; linarith)]
  simp [upStop, hn, min_eq_left h'.le, h'.ne]

end steps

@[simp] theorem at3 (t : Thr) : t.at 3 = 1 / 10 := rfl
@[simp] theorem at4 (t : Thr) : t.at 4 = t.mc := rfl
@[simp] theorem at5 (t : Thr) : t.at 5 = t.mb := rfl
@[simp] theorem at6 (t : Thr) : t.at 6 = t.mt := rfl

/-- Running down, without `nf_out`. -/
theorem down_eq (flow : Nat → ℝ → ℝ → X → X) (hf : IsFlow flow) (t : Thr) (ht : t.Ordered) (a c : ℝ)
    (x : X) (hca : c < a) (hc : 1 / 10 ≤ c) :
    down flow t a c none [6, 5, 4, 3] x a none = .ok (fromMb flow t c (toMb flow t a x)) := by
  obtain ⟨h1, h2, h3⟩ := ht
  by_cases a6 : t.mt < a
  · have ha : toMb flow t a x = flow 5 t.mt t.mb (flow 6 a t.mt x) := by
      unfold toMb
      rw [if_neg (by linarith), if_neg (by linarith), if_neg (by linarith)]
    rw [ha]
    by_cases c6 : t.mt ≤ c
    · rw [down_stop flow t a c (by simpa using a6) (by simpa using c6)]
      unfold fromMb
      rw [if_neg (by linarith), if_neg (by linarith)]
      by_cases h : c ≤ t.mt
      · have : c = t.mt := le_antisymm h c6
        subst this
        simp [hf.trans, hf.refl]
      · rw [if_neg h]; simp [hf.trans, hf.refl]
    · push Not at c6
      rw [down_go flow t a c (by simp) (by simpa using a6) (by simpa using c6)]
      simp only [at6]
      by_cases c5 : t.mb ≤ c
      · rw [down_stop flow t a c (by simp; linarith) (by simpa using c5)]
        unfold fromMb
        rw [if_neg (by linarith)]
        by_cases h : c ≤ t.mb
        · have : c = t.mb := le_antisymm h c5
          subst this
          simp [hf.trans, hf.refl]
        · rw [if_neg h, if_pos c6.le]; simp [hf.trans, hf.refl]
      · push Not at c5
        rw [down_go flow t a c (by simp) (by simp; linarith) (by simpa using c5)]
        simp only [at5]
        by_cases c4 : t.mc ≤ c
        · rw [down_stop flow t a c (by simp; linarith) (by simpa using c4)]
          unfold fromMb
          by_cases h : c ≤ t.mc
          · have : c = t.mc := le_antisymm h c4
            subst this
            simp [hf.trans, hf.refl]
          · rw [if_neg h, if_pos c5.le]
        · push Not at c4
          rw [down_go flow t a c (by simp) (by simp; linarith) (by simpa using c4)]
          simp only [at4]
          rw [down_stop flow t a c (by simp; linarith) (by simpa using hc)]
          unfold fromMb
          rw [if_pos c4.le]
  push Not at a6
  rw [down_skip flow t a c (by simpa using a6)]
  by_cases a5 : t.mb < a
  · have ha : toMb flow t a x = flow 5 a t.mb x := by
      unfold toMb
      rw [if_neg (by linarith), if_neg (by linarith), if_pos a6]
    rw [ha]
    by_cases c5 : t.mb ≤ c
    · rw [down_stop flow t a c (by simpa using a5) (by simpa using c5)]
      unfold fromMb
      rw [if_neg (by linarith)]
      by_cases h : c ≤ t.mb
      · have : c = t.mb := le_antisymm h c5
        subst this
        simp [hf.trans, hf.refl]
      · rw [if_neg h, if_pos (by linarith)]; simp [hf.trans, hf.refl]
    · push Not at c5
      rw [down_go flow t a c (by simp) (by simpa using a5) (by simpa using c5)]
      simp only [at5]
      by_cases c4 : t.mc ≤ c
      · rw [down_stop flow t a c (by simp; linarith) (by simpa using c4)]
        unfold fromMb
        by_cases h : c ≤ t.mc
        · have : c = t.mc := le_antisymm h c4
          subst this
          simp [hf.trans, hf.refl]
        · rw [if_neg h, if_pos c5.le]
      · push Not at c4
        rw [down_go flow t a c (by simp) (by simp; linarith) (by simpa using c4)]
        simp only [at4]
        rw [down_stop flow t a c (by simp; linarith) (by simpa using hc)]
        unfold fromMb
        rw [if_pos c4.le]
  push Not at a5
  rw [down_skip flow t a c (by simpa using a5)]
  by_cases a4 : t.mc < a
  · have ha : toMb flow t a x = flow 4 a t.mb x := by
      unfold toMb
      rw [if_neg (by linarith), if_pos a5]
    rw [ha]
    by_cases c4 : t.mc ≤ c
    · rw [down_stop flow t a c (by simpa using a4) (by simpa using c4)]
      unfold fromMb
      by_cases h : c ≤ t.mc
      · have : c = t.mc := le_antisymm h c4
        subst this
        simp [hf.trans, hf.refl]
      · rw [if_neg h, if_pos (by linarith)]; simp [hf.trans, hf.refl]
    · push Not at c4
      rw [down_go flow t a c (by simp) (by simpa using a4) (by simpa using c4)]
      simp only [at4]
      rw [down_stop flow t a c (by simp; linarith) (by simpa using hc)]
      unfold fromMb
      rw [if_pos c4.le]
      simp [hf.trans, hf.refl]
  push Not at a4
  rw [down_skip flow t a c (by simpa using a4)]
  have ha : toMb flow t a x = flow 4 t.mc t.mb (flow 3 a t.mc x) := by
    unfold toMb
    rw [if_pos a4]
  rw [ha, down_stop flow t a c (by simp; linarith) (by simpa using hc)]
  unfold fromMb
  rw [if_pos (by linarith)]
  simp [hf.trans, hf.refl]

/-- Running up. -/
theorem up_eq (flow : Nat → ℝ → ℝ → X → X) (hf : IsFlow flow) (t : Thr) (ht : t.Ordered) (a c : ℝ)
    (x : X) (hac : a < c) :
    up flow t a c [3, 4, 5, 6] x a none = .ok (fromMb flow t c (toMb flow t a x)) := by
  obtain ⟨h1, h2, h3⟩ := ht
  have hfc6 : t.mt < c → ∀ y, fromMb flow t c y = flow 6 t.mt c (flow 5 t.mb t.mt y) := by
    intro h y
    unfold fromMb
    rw [if_neg (by linarith), if_neg (by linarith), if_neg (by linarith)]
  have hfc5 : t.mb < c → c ≤ t.mt → ∀ y, fromMb flow t c y = flow 5 t.mb c y := by
    intro h h' y
    unfold fromMb
    rw [if_neg (by linarith), if_neg (by linarith), if_pos h']
  have hfc4 : t.mc < c → c ≤ t.mb → ∀ y, fromMb flow t c y = flow 4 t.mb c y := by
    intro h h' y
    unfold fromMb
    rw [if_neg (by linarith), if_pos h']
  by_cases a3 : a < t.mc
  · have ha : toMb flow t a x = flow 4 t.mc t.mb (flow 3 a t.mc x) := by
      unfold toMb
      rw [if_pos a3.le]
    rw [ha]
    by_cases c3 : c ≤ t.mc
    · rw [up_stop flow t a c (by norm_num) (by simpa using a3) (by simpa using c3)]
      unfold fromMb
      rw [if_pos c3]; simp [hf.trans, hf.refl]
    · push Not at c3
      rw [up_go flow t a c (by norm_num) (by simpa using a3) (by simpa using c3)]
      by_cases c4 : c ≤ t.mb
      · rw [up_stop flow t a c (by norm_num) (by simp; linarith) (by simpa using c4), hfc4 c3 c4]
        simp [hf.trans, hf.refl]
      · push Not at c4
        rw [up_go flow t a c (by norm_num) (by simp; linarith) (by simpa using c4)]
        by_cases c5 : c ≤ t.mt
        · rw [up_stop flow t a c (by norm_num) (by simp; linarith) (by simpa using c5), hfc5 c4 c5]
          simp
        · push Not at c5
          rw [up_go flow t a c (by norm_num) (by simp; linarith) (by simpa using c5), up_stop6,
            hfc6 c5]
          simp
  push Not at a3
  rw [up_skip flow t a c (by norm_num) (by simpa using a3)]
  by_cases a4 : a < t.mb
  · have ha : toMb flow t a x = flow 4 a t.mb x := by
      unfold toMb
      by_cases h : a ≤ t.mc
      · have : a = t.mc := le_antisymm h a3
        subst this
        rw [if_pos h]; simp [hf.refl]
      · rw [if_neg h, if_pos a4.le]
    rw [ha]
    by_cases c4 : c ≤ t.mb
    · rw [up_stop flow t a c (by norm_num) (by simpa using a4) (by simpa using c4),
        hfc4 (by linarith) c4]
      simp [hf.trans]
    · push Not at c4
      rw [up_go flow t a c (by norm_num) (by simpa using a4) (by simpa using c4)]
      by_cases c5 : c ≤ t.mt
      · rw [up_stop flow t a c (by norm_num) (by simp; linarith) (by simpa using c5), hfc5 c4 c5]
        simp
      · push Not at c5
        rw [up_go flow t a c (by norm_num) (by simp; linarith) (by simpa using c5), up_stop6,
          hfc6 c5]
        simp
  push Not at a4
  rw [up_skip flow t a c (by norm_num) (by simpa using a4)]
  by_cases a5 : a < t.mt
  · have ha : toMb flow t a x = flow 5 a t.mb x := by
      unfold toMb
      rw [if_neg (by linarith)]
      by_cases h : a ≤ t.mb
      · have : a = t.mb := le_antisymm h a4
        subst this
        simp [hf.refl]
      · rw [if_neg h, if_pos a5.le]
    rw [ha]
    by_cases c5 : c ≤ t.mt
    · rw [up_stop flow t a c (by norm_num) (by simpa using a5) (by simpa using c5),
        hfc5 (by linarith) c5]
      simp [hf.trans]
    · push Not at c5
      rw [up_go flow t a c (by norm_num) (by simpa using a5) (by simpa using c5), up_stop6, hfc6 c5]
      simp [hf.trans]
  push Not at a5
  rw [up_skip flow t a c (by norm_num) (by simpa using a5), up_stop6, hfc6 (by linarith)]
  have ha : toMb flow t a x = flow 5 t.mt t.mb (flow 6 a t.mt x) := by
    unfold toMb
    rw [if_neg (by linarith), if_neg (by linarith)]
    by_cases h : a ≤ t.mt
    · have : a = t.mt := le_antisymm h a5
      subst this
      simp [hf.refl]
    · rw [if_neg h]
  rw [ha]
  simp [hf.trans, hf.refl]

theorem evolve_eq (flow : Nat → ℝ → ℝ → X → X) (hf : IsFlow flow) (t : Thr) (ht : t.Ordered) (a c : ℝ)
    (x : X) (hc : 1 / 10 ≤ c) :
    evolve flow t a c none x = .ok (fromMb flow t c (toMb flow t a x)) := by
  unfold evolve evolve'
  split_ifs with h1 h2 h3
  · subst h1; rw [to_from flow hf]
  · linarith
  · exact down_eq flow hf t ht a c x h3 hc
  · exact up_eq flow hf t ht a c x (lt_of_le_of_ne (not_lt.1 h3) h1)

/-- **C62 (composition).** Evolving from `a` to `b` and then from `b` to `c` gives the same as evolving
from `a` to `c`, for every intermediate scale (not only between `a` and `c`); in particular evolving
back recovers the initial condition. -/
theorem C62_composition (flow : Nat → ℝ → ℝ → X → X) (hf : IsFlow flow) (t : Thr) (ht : t.Ordered)
    (a b c : ℝ) (hb : 1 / 10 ≤ b) (hc : 1 / 10 ≤ c) (x : X) :
    (evolve flow t a b none x >>= fun y => evolve flow t b c none y) = evolve flow t a c none x := by
  rw [evolve_eq flow hf t ht a b x hb, evolve_eq flow hf t ht a c x hc, ok_bind_eq,
    evolve_eq flow hf t ht b c _ hc, from_to flow hf]

/-- **C62 (number of flavours).** Within the energy range of `nf` flavours, the evolution is the one of
the `nf`-flavour equation.  Together with the composition law this determines the evolution between any
two scales. -/
theorem C62_flavours (flow : Nat → ℝ → ℝ → X → X) (hf : IsFlow flow) (t : Thr) (ht : t.Ordered)
    (nf : Nat) (a c : ℝ) (ha : InRange t nf a) (hc' : InRange t nf c) (hc : 1 / 10 ≤ c) (x : X) :
    evolve flow t a c none x = .ok (flow nf a c x) := by
  obtain ⟨h1, h2, h3⟩ := ht
  rw [evolve_eq flow hf t ⟨h1, h2, h3⟩ a c x hc]
  congr 1
  unfold InRange at ha hc'
  unfold toMb fromMb
  rcases ha with ⟨rfl, ha⟩ | ⟨rfl, ha, ha'⟩ | ⟨rfl, ha, ha'⟩ | ⟨rfl, ha⟩
  · have hc2 : c ≤ t.mc := by
      rcases hc' with ⟨-, h⟩ | ⟨h, -⟩ | ⟨h, -⟩ | ⟨h, -⟩ <;> first | exact h | omega
    rw [if_pos ha, if_pos hc2]; simp [hf.trans, hf.refl]
  · have hc2 : t.mc ≤ c ∧ c ≤ t.mb := by
      rcases hc' with ⟨h, -⟩ | ⟨-, h⟩ | ⟨h, -⟩ | ⟨h, -⟩ <;> first | exact h | omega
    by_cases e1 : a ≤ t.mc
    · obtain rfl : a = t.mc := le_antisymm e1 ha
      by_cases e2 : c ≤ t.mc
      · obtain rfl : c = t.mc := le_antisymm e2 hc2.1
        rw [if_pos e1, if_pos e1]; simp [hf.trans, hf.refl]
      · rw [if_pos e1, if_neg e2, if_pos hc2.2]; simp [hf.trans, hf.refl]
    · rw [if_neg e1, if_pos ha']
      by_cases e2 : c ≤ t.mc
      · obtain rfl : c = t.mc := le_antisymm e2 hc2.1
        rw [if_pos e2]; simp [hf.trans, hf.refl]
      · rw [if_neg e2, if_pos hc2.2]; simp [hf.trans, hf.refl]
  · have hc2 : t.mb ≤ c ∧ c ≤ t.mt := by
      rcases hc' with ⟨h, -⟩ | ⟨h, -⟩ | ⟨-, h⟩ | ⟨h, -⟩ <;> first | exact h | omega
    rw [if_neg (by linarith [hc2.1] : ¬ c ≤ t.mc), if_neg (by linarith : ¬ a ≤ t.mc)]
    by_cases e1 : a ≤ t.mb
    · obtain rfl : a = t.mb := le_antisymm e1 ha
      rw [if_pos e1]
      by_cases e2 : c ≤ t.mb
      · obtain rfl : c = t.mb := le_antisymm e2 hc2.1
        rw [if_pos e2]; simp [hf.trans, hf.refl]
      · rw [if_neg e2, if_pos hc2.2]; simp [hf.trans, hf.refl]
    · rw [if_neg e1, if_pos ha']
      by_cases e2 : c ≤ t.mb
      · obtain rfl : c = t.mb := le_antisymm e2 hc2.1
        rw [if_pos e2]; simp [hf.trans, hf.refl]
      · rw [if_neg e2, if_pos hc2.2]; simp [hf.trans, hf.refl]
  · have hc2 : t.mt ≤ c := by
      rcases hc' with ⟨h, -⟩ | ⟨h, -⟩ | ⟨h, -⟩ | ⟨-, h⟩ <;> first | exact h | omega
    rw [if_neg (by linarith : ¬ c ≤ t.mc), if_neg (by linarith : ¬ c ≤ t.mb),
      if_neg (by linarith : ¬ a ≤ t.mc), if_neg (by linarith : ¬ a ≤ t.mb)]
    by_cases e1 : a ≤ t.mt
    · obtain rfl : a = t.mt := le_antisymm e1 ha
      rw [if_pos e1]
      by_cases e2 : c ≤ t.mt
      · obtain rfl : c = t.mt := le_antisymm e2 hc2
        rw [if_pos e2]; simp [hf.trans, hf.refl]
      · rw [if_neg e2]; simp [hf.trans, hf.refl]
    · rw [if_neg e1]
      by_cases e2 : c ≤ t.mt
      · obtain rfl : c = t.mt := le_antisymm e2 hc2
        rw [if_pos e2]; simp [hf.trans, hf.refl]
      · rw [if_neg e2]; simp [hf.trans, hf.refl]

/-- **C62 (edges).** Evolution to the same scale is the identity (at any scale); any other evolution to
a scale below 0.1 raises `ValueError`. -/
theorem C62_edges (flow : Nat → ℝ → ℝ → X → X) (t : Thr) (a c : ℝ) (nfOut : Option Nat) (x : X) :
    evolve flow t a a nfOut x = .ok x ∧
    (c < 1 / 10 → a ≠ c → evolve flow t a c nfOut x = .error .valueError) := by
  unfold evolve
  refine ⟨by rw [if_pos rfl], fun h h' => by rw [if_neg h', if_pos h]⟩

/-- **C62 (`nf_out`).** The argument `nf_out` is ignored when running up, and when running down to a
scale above the upper end of the `nf_out`-flavour range. -/
theorem C62_nf_out_ignored (flow : Nat → ℝ → ℝ → X → X) (t : Thr) (ht : t.Ordered) (a c : ℝ) (x : X)
    (nf : Nat) (h : a ≤ c ∨ (3 ≤ nf ∧ nf < 6 ∧ t.at (nf + 1) ≤ c) ∨ nf < 3 ∨ 6 < nf) :
    evolve flow t a c (some nf) x = evolve flow t a c none x := by
  unfold evolve evolve'
  split_ifs with h1 h2 h3
  · rfl
  · rfl
  · -- running down
    have hne : ∀ m ∈ [6, 5, 4, 3], nf = m → t.at (m + 1) ≤ c ∧ m < 6 := by
      rintro m hm rfl
      rcases h with h | ⟨-, h', h⟩ | h | h
      · linarith
      · exact ⟨h, h'⟩
      · simp at hm; omega
      · simp at hm; omega
    obtain ⟨o1, o2, o3⟩ := ht
    have gen : ∀ (m : Nat) (l : List Nat) (x : X) (s : ℝ) (last : Option X), m ∈ [6, 5, 4, 3] →
        (nf = m → a ≤ t.at m ∨ t.at m ≤ c) →
        (∀ y s last, down flow t a c (some nf) l y s last = down flow t a c none l y s last) →
        down flow t a c (some nf) (m :: l) x s last = down flow t a c none (m :: l) x s last := by
      intro m l x s last hm hnm ih
      by_cases hs : a ≤ t.at m
      · rw [down_skip flow t a c hs, down_skip flow t a c hs, ih]
      · push Not at hs
        by_cases hc : t.at m ≤ c
        · rw [down_stop flow t a c hs hc, down_stop flow t a c hs hc]
        · push Not at hc
          have hn : (some nf : Option Nat) ≠ some m := by
            intro he
            rcases hnm (Option.some.inj he) with h | h <;> linarith
          rw [down_go flow t a c hn hs hc, down_go flow t a c (by simp) hs hc, ih]
    have hmono : ∀ m ∈ [6, 5, 4, 3], nf = m → a ≤ t.at m ∨ t.at m ≤ c := by
      intro m hm he
      obtain ⟨h4, h5⟩ := hne m hm he
      right
      simp only [List.mem_cons, List.not_mem_nil, or_false] at hm
      rcases hm with rfl | rfl | rfl | rfl
      · omega
      · simp at h4 ⊢; linarith
      · simp at h4 ⊢; linarith
      · simp at h4 ⊢; linarith
    exact gen 6 _ _ _ _ (by simp) (hmono 6 (by simp)) fun y s last =>
      gen 5 _ _ _ _ (by simp) (hmono 5 (by simp)) fun y s last =>
        gen 4 _ _ _ _ (by simp) (hmono 4 (by simp)) fun y s last =>
          gen 3 _ _ _ _ (by simp) (hmono 3 (by simp)) fun y s last => by cases last <;> rfl
  · rfl

/-- **C62 (`nf_out`).** When running down to a scale below the range of `nf_out` flavours from a scale
inside or above it, the evolution goes to the upper end of the range (or starts inside it) and then runs
with `nf_out` flavours to the final scale. -/
theorem C62_nf_out_respected (flow : Nat → ℝ → ℝ → X → X) (hf : IsFlow flow) (t : Thr) (ht : t.Ordered)
    (a c : ℝ) (x : X) (nf : Nat) (hnf : nf ∈ [3, 4, 5, 6]) (hca : c < a) (hc : 1 / 10 ≤ c)
    (hcn : c ≤ t.at nf) (han : t.at nf < a) :
    evolve flow t a c (some nf) x =
      if nf < 6 ∧ t.at (nf + 1) < a then
        evolve flow t a (t.at (nf + 1)) none x >>= fun y => .ok (flow nf (t.at (nf + 1)) c y)
      else .ok (flow nf a c x) := by
  obtain ⟨o1, o2, o3⟩ := ht
  have hev : evolve flow t a c (some nf) x = down flow t a c (some nf) [6, 5, 4, 3] x a none := by
    unfold evolve evolve'
    rw [if_neg hca.ne', if_neg (by linarith), if_pos hca]
  rw [hev]
  have hdn : ∀ c', c' < a → 1 / 10 ≤ c' →
      evolve flow t a c' none x = down flow t a c' none [6, 5, 4, 3] x a none := by
    intro c' h1 h2
    unfold evolve evolve'
    rw [if_neg h1.ne', if_neg (by linarith), if_pos h1]
  simp only [List.mem_cons, List.not_mem_nil, or_false] at hnf
  rcases hnf with rfl | rfl | rfl | rfl
  · -- 3
    simp only [at3] at hcn han
    by_cases ha : t.mc < a
    · rw [if_pos (by simpa using ha)]
      show _ = (evolve flow t a t.mc none x >>= _)
      rw [hdn t.mc ha o1.le]
      by_cases a5 : t.mb < a
      · by_cases a6 : t.mt < a
        · rw [down_go flow t a c (by simp) (by simpa using a6) (by simp; linarith),
            down_go flow t a c (by simp) (by simpa using a5) (by simp; linarith),
            down_go flow t a c (by simp) (by simpa using ha) (by simp; linarith),
            down_direct flow t a c (by simpa using han)]
          rw [down_go flow t a t.mc (by simp) (by simpa using a6) (by simp; linarith),
            down_go flow t a t.mc (by simp) (by simpa using a5) (by simp; linarith),
            down_stop flow t a t.mc (by simpa using ha) (by simp), ok_bind_eq]
          simp
        · push Not at a6
          rw [down_skip flow t a c (by simpa using a6),
            down_go flow t a c (by simp) (by simpa using a5) (by simp; linarith),
            down_go flow t a c (by simp) (by simpa using ha) (by simp; linarith),
            down_direct flow t a c (by simpa using han)]
          rw [down_skip flow t a t.mc (by simpa using a6),
            down_go flow t a t.mc (by simp) (by simpa using a5) (by simp; linarith),
            down_stop flow t a t.mc (by simpa using ha) (by simp), ok_bind_eq]
          simp
      · push Not at a5
        rw [down_skip flow t a c (by simp; linarith), down_skip flow t a c (by simpa using a5),
          down_go flow t a c (by simp) (by simpa using ha) (by simp; linarith),
          down_direct flow t a c (by simpa using han)]
        rw [down_skip flow t a t.mc (by simp; linarith), down_skip flow t a t.mc (by simpa using a5),
          down_stop flow t a t.mc (by simpa using ha) (by simp), ok_bind_eq]
        simp
    · push Not at ha
      rw [if_neg (by simp; linarith)]
      rw [down_skip flow t a c (by simp; linarith), down_skip flow t a c (by simp; linarith),
        down_skip flow t a c (by simpa using ha), down_direct flow t a c (by simpa using han)]
  · simp only [at4] at hcn han
    by_cases ha : t.mb < a
    · rw [if_pos (by simpa using ha)]
      show _ = (evolve flow t a t.mb none x >>= _)
      rw [hdn t.mb ha (by linarith)]
      by_cases a6 : t.mt < a
      · rw [down_go flow t a c (by simp) (by simpa using a6) (by simp; linarith),
          down_go flow t a c (by simp) (by simpa using ha) (by simp; linarith),
          down_direct flow t a c (by simpa using han)]
        rw [down_go flow t a t.mb (by simp) (by simpa using a6) (by simp; linarith),
          down_stop flow t a t.mb (by simpa using ha) (by simp), ok_bind_eq]
        simp
      · push Not at a6
        rw [down_skip flow t a c (by simpa using a6),
          down_go flow t a c (by simp) (by simpa using ha) (by simp; linarith),
          down_direct flow t a c (by simpa using han)]
        rw [down_skip flow t a t.mb (by simpa using a6),
          down_stop flow t a t.mb (by simpa using ha) (by simp), ok_bind_eq]
        simp
    · push Not at ha
      rw [if_neg (by simp; linarith)]
      rw [down_skip flow t a c (by simp; linarith), down_skip flow t a c (by simpa using ha),
        down_direct flow t a c (by simpa using han)]
  · simp only [at5] at hcn han
    by_cases ha : t.mt < a
    · rw [if_pos (by simpa using ha)]
      show _ = (evolve flow t a t.mt none x >>= _)
      rw [hdn t.mt ha (by linarith)]
      rw [down_go flow t a c (by simp) (by simpa using ha) (by simp; linarith),
        down_direct flow t a c (by simpa using han)]
      rw [down_stop flow t a t.mt (by simpa using ha) (by simp), ok_bind_eq]
      simp
    · push Not at ha
      rw [if_neg (by simp; linarith)]
      rw [down_skip flow t a c (by simpa using ha), down_direct flow t a c (by simpa using han)]
  · simp only [at6] at hcn han
    rw [if_neg (by simp), down_direct flow t a c (by simpa using han)]

/-! ### The cache -/

/-- **C62 (cache).** As long as the configured thresholds are not changed, calls through the cache
return what the uncached function returns, for every history of calls and evictions. -/
theorem C62_cache_transparent (flow : Nat → Nat → ℝ → ℝ → X → X) (t : Thr) (h : List (CacheOp X))
    (hh : ∀ t', CacheOp.setThr t' ∉ h) (a : Args X) :
    (cachedCall flow (h.foldl (cacheStep flow) ⟨t, []⟩) a).1 =
      evolve' (flow a.deriv) t a.sIn a.sOut a.nfOut a.x := by
  have inv : ∀ (h : List (CacheOp X)) (s : CacheSt X), (∀ t', CacheOp.setThr t' ∉ h) → s.thr = t →
      (∀ e ∈ s.cache, evolve' (flow e.1.deriv) t e.1.sIn e.1.sOut e.1.nfOut e.1.x = .ok e.2) →
      (h.foldl (cacheStep flow) s).thr = t ∧
      ∀ e ∈ (h.foldl (cacheStep flow) s).cache,
        evolve' (flow e.1.deriv) t e.1.sIn e.1.sOut e.1.nfOut e.1.x = .ok e.2 := by
    intro h
    induction h with
    | nil => intro s _ h1 h2; exact ⟨h1, h2⟩
    | cons op h ih =>
      intro s hn h1 h2
      rw [List.foldl_cons]
      have hn' : ∀ t', CacheOp.setThr t' ∉ h := fun t' hm => hn t' (List.mem_cons_of_mem _ hm)
      cases op with
      | call a =>
        have : (cachedCall flow s a).2.thr = t ∧ ∀ e ∈ (cachedCall flow s a).2.cache,
            evolve' (flow e.1.deriv) t e.1.sIn e.1.sOut e.1.nfOut e.1.x = .ok e.2 := by
          unfold cachedCall
          split
          · exact ⟨h1, h2⟩
          · split
            · rename_i r hr
              refine ⟨h1, fun e he => ?_⟩
              rcases List.mem_cons.1 he with rfl | he
              · rw [← h1]; exact hr
              · exact h2 e he
            · exact ⟨h1, h2⟩
        exact ih _ hn' this.1 this.2
      | evict keep => exact ih _ hn' h1 fun e he => h2 e (List.mem_filter.1 he).1
      | setThr t' => exact absurd (by simp) (hn t')
  obtain ⟨h1, h2⟩ := inv h ⟨t, []⟩ hh rfl (by simp)
  unfold cachedCall
  split
  · rename_i e he
    have hm := List.mem_of_find?_eq_some he
    have hp := List.find?_some he
    simp only [decide_eq_true_eq] at hp
    have := h2 e hm
    rw [hp] at this
    exact this.symm
  · split
    · rename_i r hr
      rw [h1] at hr
      exact hr.symm
    · rename_i e hr
      rw [h1] at hr
      exact hr.symm

/-- A flow on ℝ: every flavour number contributes `nf` per unit of scale. (Specification.) -/
noncomputable def exFlow (nf : Nat) (a b x : ℝ) : ℝ := x + nf * (b - a)

theorem exFlow_isFlow : IsFlow exFlow where
  refl nf s x := by unfold exFlow; ring
  trans nf a b c x := by unfold exFlow; ring

/-- **C62 (cache): the thresholds are not part of the key.**  After a change of the configured
thresholds, a repeated call still returns the result for the old thresholds. -/
theorem C62_cache_stale_after_config_change :
    let a : Args ℝ := ⟨0, 0, 5, 1, none⟩
    let flow : Nat → Nat → ℝ → ℝ → ℝ → ℝ := fun _ => exFlow
    let h : List (CacheOp ℝ) := [.call a, .setThr ⟨2, 4, 160⟩]
    let s := h.foldl (cacheStep flow) ⟨⟨1, 4, 160⟩, []⟩
    (cachedCall flow s a).1 ≠ evolve' (flow a.deriv) s.thr a.sIn a.sOut a.nfOut a.x := by
  intro a flow h s
  have e1 : ∀ t : Thr, t.mb = 4 → t.mt = 160 → 1 ≤ t.mc → t.mc < 4 →
      evolve' (flow 0) t 5 1 none 0 = .ok (fromMb exFlow t 1 (toMb exFlow t 5 0)) := by
    intro t hb ht hc hc'
    unfold evolve'
    rw [if_pos (by norm_num)]
    exact down_eq exFlow exFlow_isFlow t ⟨by linarith, by linarith, by linarith⟩ 5 1 0 (by norm_num)
      (by norm_num)
  have v1 : evolve' (flow 0) ⟨1, 4, 160⟩ 5 1 none 0 = .ok (-17) := by
    rw [e1 _ rfl rfl (by norm_num) (by norm_num)]
    norm_num [fromMb, toMb, exFlow]
  have v2 : evolve' (flow 0) ⟨2, 4, 160⟩ 5 1 none 0 = .ok (-16) := by
    rw [e1 _ rfl rfl (by norm_num) (by norm_num)]
    norm_num [fromMb, toMb, exFlow]
  have hs : s = ⟨⟨2, 4, 160⟩, [(a, -17)]⟩ := by
    show cacheStep flow (cacheStep flow ⟨⟨1, 4, 160⟩, []⟩ (.call a)) (.setThr ⟨2, 4, 160⟩) = _
    have : cacheStep flow ⟨⟨1, 4, 160⟩, []⟩ (.call a) = ⟨⟨1, 4, 160⟩, [(a, -17)]⟩ := by
      unfold cacheStep cachedCall
      simp only [List.find?_nil]
      have v1' : evolve' (flow a.deriv) ⟨1, 4, 160⟩ a.sIn a.sOut a.nfOut a.x = .ok (-17) := v1
      rw [v1']

    rw [this]; rfl
  rw [hs]
  have h1 : (cachedCall flow ⟨⟨2, 4, 160⟩, [(a, -17)]⟩ a).1 = .ok (-17) := by
    unfold cachedCall
    simp
  rw [h1]
  show _ ≠ evolve' (flow 0) ⟨2, 4, 160⟩ 5 1 none 0
  rw [v2]
  simp

/-! ## C63 -/

/-- The running as a real expression, where it is defined. -/
theorem runAlphaE_eq {a s1 s2 nu nd ne : ℝ} (h1 : 0 < s1) (h2 : 0 < s2)
    (hd : 1 + a * beta0 nu nd ne * Real.log (s2 / s1) / (2 * Real.pi) ≠ 0) :
    runAlphaE a s1 s2 nu nd ne =
      .ok (a / (1 + a * beta0 nu nd ne * Real.log (s2 / s1) / (2 * Real.pi))) := by
  unfold runAlphaE
  split_ifs with h
  · subst h
    rw [div_self h1.ne', Real.log_one]
    simp
  · unfold pyDiv pyLog
    rw [if_neg h1.ne', ok_bind_eq, if_neg (not_le.2 (div_pos h2 h1)), ok_bind_eq, if_neg hd]

/-- **C63 (one-loop equation).** For positive scales and couplings, the result satisfies
`1/α(s2) = 1/α(s1) - (2/(3π)) · Σ Q² N · log(s2/s1)` with `Σ Q² N = (4 n_u + n_d)/3 + n_e`, i.e. three
colours for quarks, whenever the right-hand side does not vanish (Landau pole). -/
theorem C63_one_loop (a s1 s2 nu nd ne : ℝ) (ha : 0 < a) (h1 : 0 < s1) (h2 : 0 < s2) (r : ℝ)
    (hr : 1 / a - 2 / (3 * Real.pi) * ((4 * nu + nd) / 3 + ne) * Real.log (s2 / s1) = 1 / r)
    (hr0 : r ≠ 0) : runAlphaE a s1 s2 nu nd ne = .ok r := by
  have hpi := Real.pi_pos
  have key : 1 + a * beta0 nu nd ne * Real.log (s2 / s1) / (2 * Real.pi) = a / r := by
    have : a / r = a * (1 / r) := by field_simp
    rw [this, ← hr]
    unfold beta0
    field_simp
    ring
  rw [runAlphaE_eq h1 h2 (by rw [key]; exact div_ne_zero ha.ne' hr0), key]
  congr 1
  field_simp

/-- **C63 (group law).** Running from `s1` to `s2` and on to `s3` is running from `s1` to `s3`. -/
theorem C63_group_law (a s1 s2 s3 nu nd ne : ℝ) (h1 : 0 < s1) (h2 : 0 < s2) (h3 : 0 < s3) (b : ℝ)
    (h12 : runAlphaE a s1 s2 nu nd ne = .ok b)
    (hd : 1 + a * beta0 nu nd ne * Real.log (s3 / s1) / (2 * Real.pi) ≠ 0) :
    runAlphaE b s2 s3 nu nd ne = runAlphaE a s1 s3 nu nd ne := by
  rw [runAlphaE_eq h1 h3 hd]
  set k := beta0 nu nd ne / (2 * Real.pi) with hk
  have e : ∀ (a l : ℝ), a * beta0 nu nd ne * l / (2 * Real.pi) = a * k * l := by
    intro a l; rw [hk]; ring
  rw [e] at hd ⊢
  have hl : Real.log (s3 / s1) = Real.log (s2 / s1) + Real.log (s3 / s2) := by
    rw [Real.log_div h3.ne' h1.ne', Real.log_div h2.ne' h1.ne', Real.log_div h3.ne' h2.ne']; ring
  rw [hl] at hd ⊢
  set L := Real.log (s2 / s1)
  set M := Real.log (s3 / s2)
  -- the intermediate value
  have hb : 1 + a * k * L ≠ 0 ∧ b = a / (1 + a * k * L) := by
    by_cases hd12 : 1 + a * k * L = 0
    · exfalso
      have hne : s2 ≠ s1 := by
        rintro rfl
        have : L = 0 := by
          show Real.log (s2 / s2) = 0
          rw [div_self h1.ne', Real.log_one]
        rw [this] at hd12; simp at hd12
      unfold runAlphaE pyDiv pyLog at h12
      rw [if_neg hne, if_neg h1.ne', ok_bind_eq, if_neg (not_le.2 (div_pos h2 h1)), ok_bind_eq,
        if_pos (by rw [e]; exact hd12)] at h12
      cases h12
    · refine ⟨hd12, ?_⟩
      rw [runAlphaE_eq h1 h2 (by rw [e]; exact hd12), e] at h12
      exact (Except.ok.inj h12).symm
  obtain ⟨hd12, rfl⟩ := hb
  have hden : 1 + a / (1 + a * k * L) * k * M = (1 + a * k * (L + M)) / (1 + a * k * L) := by
    field_simp; ring
  rw [runAlphaE_eq h2 h3 (by rw [e, hden]; exact div_ne_zero hd hd12), e, hden]
  congr 1
  field_simp

/-- **C63 (continuity at the thresholds).** Whether or not the running hits the Landau pole, the values
with adjacent numbers of flavours agree at the threshold between them. -/
theorem C63_continuous_at_thresholds (t : Thr) (ae : ℝ) :
    alphaENf t ae t.mt 6 = alphaENf t ae t.mt 5 ∧ alphaENf t ae t.mb 5 = alphaENf t ae t.mb 4 ∧
    alphaENf t ae t.mc 4 = alphaENf t ae t.mc 3 := by
  have hself : ∀ a s nu nd ne, runAlphaE a s s nu nd ne = .ok a := by
    intro a s nu nd ne; unfold runAlphaE; rw [if_pos rfl]
  have hbind : ∀ r : Except PyErr ℝ, (r >>= fun a => Except.ok a) = r := by
    intro r; cases r <;> rfl
  unfold alphaENf
  refine ⟨?_, ?_, ?_⟩ <;> simp [hself, hbind]

/-- **C63 (number of flavours).** For ordered thresholds, `get_nf` gives 6, 5, 4, 3 in the energy ranges
`[mt, ∞)`, `[mb, mt)`, `[mc, mb)`, `(-∞, mc)` and never raises. -/
theorem C63_get_nf (t : Thr) (ht : t.Ordered) (s : ℝ) :
    (t.mt ≤ s → getNf t s = .ok 6) ∧ (t.mb ≤ s → s < t.mt → getNf t s = .ok 5) ∧
    (t.mc ≤ s → s < t.mb → getNf t s = .ok 4) ∧ (s < t.mc → getNf t s = .ok 3) := by
  obtain ⟨o1, o2, o3⟩ := ht
  unfold getNf
  refine ⟨fun h => by rw [if_pos h], fun h h' => ?_, fun h h' => ?_, fun h => ?_⟩
  · rw [if_neg (by linarith), if_pos ⟨h, h'⟩]
  · rw [if_neg (by linarith), if_neg (by rintro ⟨h1, -⟩; linarith), if_pos ⟨h, h'⟩]
  · rw [if_neg (by linarith), if_neg (by rintro ⟨h1, -⟩; linarith),
      if_neg (by rintro ⟨h1, -⟩; linarith), if_pos h]

/-- **C63 (choice of the number of flavours).** `get_alpha_e` without `nf_out` uses the number of flavours
of the energy range of the scale; an explicit `nf_out` in 3..6 overrides this; any other positive value
raises `ValueError`. -/
theorem C63_get_alpha_e (t : Thr) (ht : t.Ordered) (ae s : ℝ) :
    (t.mt ≤ s → getAlphaE t ae s none = getAlphaE t ae s (some 6)) ∧
    (t.mb ≤ s → s < t.mt → getAlphaE t ae s none = getAlphaE t ae s (some 5)) ∧
    (t.mc ≤ s → s < t.mb → getAlphaE t ae s none = getAlphaE t ae s (some 4)) ∧
    (s < t.mc → getAlphaE t ae s none = getAlphaE t ae s (some 3)) ∧
    (∀ nf, nf ≠ 0 → nf < 3 ∨ 6 < nf → getAlphaE t ae s (some nf) = .error .valueError) := by
  obtain ⟨h6, h5, h4, h3⟩ := C63_get_nf t ht s
  have e : ∀ n, getNf t s = .ok n → n ≠ 0 → getAlphaE t ae s none = getAlphaE t ae s (some n) := by
    intro n hn h0
    obtain ⟨m, rfl⟩ := Nat.exists_eq_succ_of_ne_zero h0
    unfold getAlphaE
    show (getNf t s >>= _) = (Except.ok (m + 1) >>= _)
    rw [hn]
  refine ⟨fun h => e 6 (h6 h) (by decide), fun h h' => e 5 (h5 h h') (by decide),
    fun h h' => e 4 (h4 h h') (by decide), fun h => e 3 (h3 h) (by decide), fun nf h0 h => ?_⟩
  obtain ⟨m, rfl⟩ := Nat.exists_eq_succ_of_ne_zero h0
  show alphaENf t ae s (m + 1) = _
  unfold alphaENf
  rw [if_neg (by omega), if_neg (by omega), if_neg (by omega), if_neg (by omega)]

/-- Running upwards (in scale) increases the coupling, running downwards decreases it, as long as the
Landau pole is not reached. -/
theorem runAlphaE_mono {a s1 s2 nu nd ne : ℝ} (ha : 0 < a) (h1 : 0 < s1) (h2 : 0 < s2)
    (hn : 0 < (4 * nu + nd) / 3 + ne)
    (hL : 2 / (3 * Real.pi) * ((4 * nu + nd) / 3 + ne) * Real.log (s2 / s1) < 1 / a) :
    ∃ r, runAlphaE a s1 s2 nu nd ne = .ok r ∧ 0 < r ∧ (s1 < s2 → a < r) ∧ (s2 < s1 → r < a) := by
  have hpi := Real.pi_pos
  set k := 2 / (3 * Real.pi) * ((4 * nu + nd) / 3 + ne) with hk
  have hkpos : 0 < k := by rw [hk]; positivity
  set y := 1 / a - k * Real.log (s2 / s1) with hy
  have hypos : 0 < y := by rw [hy]; linarith
  refine ⟨1 / y, C63_one_loop a s1 s2 nu nd ne ha h1 h2 (1 / y) (by rw [one_div_one_div]) (by positivity),
    by positivity, fun h => ?_, fun h => ?_⟩
  · have hlog : 0 < Real.log (s2 / s1) := Real.log_pos (by rw [lt_div_iff₀ h1]; linarith)
    have : y < 1 / a := by rw [hy]; have := mul_pos hkpos hlog; linarith
    rw [lt_div_iff₀ hypos]
    have := mul_lt_mul_of_pos_left this ha
    rwa [mul_one_div_cancel ha.ne'] at this
  · have hlog : Real.log (s2 / s1) < 0 :=
      Real.log_neg (div_pos h2 h1) (by rw [div_lt_one h1]; exact h)
    have : 1 / a < y := by rw [hy]; have := mul_neg_of_pos_of_neg hkpos hlog; linarith
    rw [div_lt_iff₀ hypos]
    have := mul_lt_mul_of_pos_left this ha
    rwa [mul_one_div_cancel ha.ne'] at this

example : ∃ r, runAlphaE (1 / 128) 91 5 2 3 3 = .ok r ∧ 0 < r ∧ r < 1 / 128 := by
  obtain ⟨r, h1, h2, -, h3⟩ := runAlphaE_mono (a := 1 / 128) (s1 := 91) (s2 := 5) (nu := 2) (nd := 3)
    (ne := 3) (by norm_num) (by norm_num) (by norm_num) (by norm_num) (by
      have : Real.log (5 / 91) < 0 := Real.log_neg (by norm_num) (by norm_num)
      have h : 0 < 2 / (3 * Real.pi) * ((4 * 2 + 3) / 3 + 3 : ℝ) := by
        have := Real.pi_pos; positivity
      have := mul_neg_of_pos_of_neg h this
      have : (0 : ℝ) < 1 / (1 / 128) := by norm_num
      linarith)
  exact ⟨r, h1, h2, h3 (by norm_num)⟩

example : (⟨1.3, 4.2, 160⟩ : Thr).Ordered := ⟨by norm_num, by norm_num, by norm_num⟩

end Verif.Running
