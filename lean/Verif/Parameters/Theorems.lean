import Verif.Parameters.Model
import Mathlib.Analysis.Calculus.Deriv.Inv
/-!
# C100: reading parameter values and PDG data
-/
set_option linter.unusedSectionVars false
set_option linter.unusedSimpArgs false
set_option linter.unusedVariables false
namespace Verif.Parameters
open Verif.Py Verif.Constraints Verif.Measurements

variable {D W α : Type}

theorem init_good (reg : List String) : (PS.init reg : PS D).Good := by
  intro p i r h; cases h

theorem view_add {s : PS D} (hg : s.Good) (ps : List String) (d : PD D) (p : String) :
    (s.add ps d).view p = match lastIdx ps p with
      | some i => some (i, d)
      | none => s.view p := by
  unfold PS.view PS.add
  simp only [get?_addConstraint]
  cases h : lastIdx ps p with
  | some i => simp
  | none =>
    simp only
    cases h2 : s.st.parameters.get? p with
    | none => rfl
    | some e =>
      obtain ⟨i, r⟩ := e
      simp only
      rw [List.getElem?_append_left (hg p i r h2)]

theorem good_add {s : PS D} (hg : s.Good) (ps : List String) (d : PD D) : (s.add ps d).Good := by
  intro p i r h
  unfold PS.add at h ⊢
  simp only [get?_addConstraint] at h
  simp only [List.length_append, List.length_singleton]
  cases h2 : lastIdx ps p with
  | some n => rw [h2] at h; cases h; omega
  | none => rw [h2] at h; have := hg p i r h; omega

theorem lastIdx_single (q p : String) : lastIdx [q] p = if q = p then some 0 else none := by
  by_cases h : q = p
  · subst h
    rw [if_pos rfl]
    exact (lastIdx_of_nodup (by simp) (by simp)).trans (by simp)
  · rw [if_neg h, lastIdx_eq_none_iff]
    simpa using fun e => h e.symm

theorem loop_append (f : PS D → α → PS D × Option PyErr) (s : PS D) (l₁ l₂ : List α) :
    loop f s (l₁ ++ l₂) = match loop f s l₁ with
      | (s', none) => loop f s' l₂
      | (s', some e) => (s', some e) := by
  induction l₁ generalizing s with
  | nil => rfl
  | cons a l ih =>
    simp only [List.cons_append, loop]
    rcases h : f s a with ⟨s', _ | e⟩
    · simp only; exact ih s'
    · rfl

/-! ## values -/

/-- The distribution for an entry of the file can be made. (Specification.) -/
def Readable (conv : W → Except PyErr D) (reg : List String) (e : String × W) (d : D) : Prop := e.1 ∈ reg ∧ conv e.2 = .ok d

theorem readValue_ok {conv : W → Except PyErr D} {s : PS D} {e : String × W} {d : D} (h : Readable conv s.reg e d) :
    readValue conv s e = (s.add [e.1] (.base d), none) := by
  unfold readValue; rw [if_pos h.1, h.2]

/-- **C100 (values)** If every parameter of the file exists and every value can be read, reading succeeds; each
parameter of the file then has its value, and no other parameter is touched. -/
theorem C100_values (conv : W → Except PyErr D) (s : PS D) (hg : s.Good) (items : List (String × W))
    (hn : (items.map Prod.fst).Nodup) (h : ∀ e ∈ items, ∃ d, Readable conv s.reg e d) :
    ∃ s', readValues conv s items = (s', none) ∧ s'.Good ∧ s'.reg = s.reg ∧
      (∀ e ∈ items, ∀ d, conv e.2 = .ok d → s'.view e.1 = some (0, .base d)) ∧
      (∀ p, p ∉ items.map Prod.fst → s'.view p = s.view p) := by
  induction items generalizing s with
  | nil => exact ⟨s, rfl, hg, rfl, by simp, by simp⟩
  | cons e l ih =>
    obtain ⟨d, hd⟩ := h e (by simp)
    rw [List.map_cons, List.nodup_cons] at hn
    obtain ⟨s', h1, h2, h3, h4, h5⟩ := ih (s.add [e.1] (.base d)) (good_add hg _ _) hn.2
      (fun e' he' => h e' (by simp [he']))
    refine ⟨s', ?_, h2, h3, ?_, ?_⟩
    · unfold readValues at h1 ⊢
      simp only [loop]
      rw [readValue_ok hd]
      exact h1
    · intro e' he' d' hd'
      rcases List.mem_cons.1 he' with rfl | hm
      · rw [hd.2] at hd'; cases hd'
        rw [h5 _ hn.1, view_add hg, lastIdx_single, if_pos rfl]
      · exact h4 e' hm d' hd'
    · intro p hp
      rw [List.map_cons, List.mem_cons, not_or] at hp
      rw [h5 p hp.2, view_add hg, lastIdx_single, if_neg (fun h => hp.1 h.symm)]

/-- **C100 (values, failure)** If reading fails, there is a first entry that cannot be read: the error is `KeyError` if its
parameter does not exist, else the error of its value; the entries before it have been read, nothing else has. -/
theorem C100_values_failure (conv : W → Except PyErr D) (s s' : PS D) (hg : s.Good) (items : List (String × W)) (x : PyErr)
    (hn : (items.map Prod.fst).Nodup) (h : readValues conv s items = (s', some x)) :
    ∃ pre e post, items = pre ++ e :: post ∧ readValues conv s pre = (s', none) ∧
      (∀ a ∈ pre, ∃ d, Readable conv s.reg a d ∧ s'.view a.1 = some (0, .base d)) ∧
      (∀ p, p ∉ pre.map Prod.fst → s'.view p = s.view p) ∧
      ((e.1 ∉ s.reg ∧ x = .keyError) ∨ (e.1 ∈ s.reg ∧ conv e.2 = .error x)) := by
  induction items generalizing s with
  | nil => simp [readValues, loop] at h
  | cons a l ih =>
    by_cases hr : ∃ d, Readable conv s.reg a d
    · obtain ⟨d, hd⟩ := hr
      have h' : readValues conv (s.add [a.1] (.base d)) l = (s', some x) := by
        unfold readValues at h ⊢
        simp only [loop] at h
        rw [readValue_ok hd] at h
        exact h
      rw [List.map_cons, List.nodup_cons] at hn
      obtain ⟨pre, e, post, i1, i2, i3, i4, i5⟩ := ih (s.add [a.1] (.base d)) (good_add hg _ _) hn.2 h'
      have ha : a.1 ∉ pre.map Prod.fst := by
        intro hm; apply hn.1; rw [i1, List.map_append, List.mem_append]; exact Or.inl hm
      refine ⟨a :: pre, e, post, by rw [i1]; rfl, ?_, ?_, ?_, i5⟩
      · unfold readValues at i2 ⊢
        simp only [loop]
        rw [readValue_ok hd]
        exact i2
      · intro b hb
        rcases List.mem_cons.1 hb with rfl | hm
        · refine ⟨d, hd, ?_⟩
          rw [i4 _ ha, view_add hg, lastIdx_single, if_pos rfl]
        · exact i3 b hm
      · intro p hp
        rw [List.map_cons, List.mem_cons, not_or] at hp
        rw [i4 p hp.2, view_add hg, lastIdx_single, if_neg (fun h => hp.1 h.symm)]
    · refine ⟨[], a, l, rfl, ?_, by simp, ?_, ?_⟩
      · unfold readValues at h ⊢
        simp only [loop] at h ⊢
        unfold readValue at h
        split at h
        · rename_i s1 heq
          split at heq
          · split at heq
            · rename_i hd _ d hc; exact absurd ⟨d, hd, hc⟩ hr
            · cases heq
          · cases heq
        · rename_i s1 e heq
          cases h
          split at heq
          · split at heq <;> cases heq; rfl
          · cases heq; rfl
      all_goals
        unfold readValues at h
        simp only [loop] at h
        unfold readValue at h
        by_cases hm : a.1 ∈ s.reg
        · rw [if_pos hm] at h
          cases hc : conv a.2 with
          | ok d => exact absurd ⟨d, hm, hc⟩ hr
          | error y =>
            rw [hc] at h
            simp only [Prod.mk.injEq, Option.some.injEq] at h
            obtain ⟨rfl, rfl⟩ := h
            first
              | exact fun p _ => rfl
              | exact Or.inr ⟨hm, rfl⟩
        · rw [if_neg hm] at h
          simp only [Prod.mk.injEq, Option.some.injEq] at h
          obtain ⟨rfl, rfl⟩ := h
          first
            | exact fun p _ => rfl
            | exact Or.inl ⟨hm, rfl⟩

/-- Two values, both parameters known. -/
example : ∃ d, Readable (D := Nat) (fun w : Nat => .ok w) ["m_b", "m_c"] ("m_b", 4) d := ⟨4, by decide, rfl⟩

/-! ## PDG -/

/-- A complete entry of the PDG table: mass and errors are known, errors are positive; the width and its errors are
positive numbers, zero or unknown. (Specification.) -/
def Complete (p : Particle) : Prop :=
  (∃ m u l, p.mass = some m ∧ p.massUpper = some u ∧ p.massLower = some l ∧ 0 < u ∧ 0 < l) ∧
  (∀ g, p.width = some g → 0 ≤ g) ∧ (∀ g, p.widthUpper = some g → 0 ≤ g) ∧ (∀ g, p.widthLower = some g → 0 ≤ g)

/-- The parameters read for a list of particles, with centre, right and left deviation: the mass in GeV, and, if width and
width errors are known and not zero, the inverse width. (Specification.) -/
def Reads (ps : List Particle) (name : String) (c r l : ℝ) : Prop :=
  ∃ p ∈ ps, (∃ m u lo, p.mass = some m ∧ p.massUpper = some u ∧ p.massLower = some lo ∧
      name = "m_" ++ p.name ∧ c = m / 1000 ∧ r = u / 1000 ∧ l = lo / 1000) ∨
    (∃ g u lo, p.width = some g ∧ p.widthUpper = some u ∧ p.widthLower = some lo ∧ g ≠ 0 ∧ u ≠ 0 ∧ lo ≠ 0 ∧
      name = "tau_" ++ p.name ∧ c = 1000 / g ∧ r = u / g ^ 2 * 1000 ∧ l = lo / g ^ 2 * 1000)

/-- The distribution with given centre and deviations. (Specification.) -/
noncomputable def distFor (c r l : ℝ) : PD D := if r = l then .normal c r else .asym c r l

/-- Data that `pdgStep` accepts. (Specification.) -/
def Datum.Pos (d : Datum) : Prop := 0 < d.right ∧ 0 < d.left

theorem distOf_pos {d : Datum} (h : d.Pos) : distOf d = .ok (distFor (D := D) d.central d.right d.left) := by
  unfold distOf distFor
  split
  · rw [if_neg (not_le.2 h.1)]
  · rw [if_neg (by push Not; exact ⟨h.1, h.2⟩)]

/-- State after one step. (Specification.) -/
noncomputable def afterStep (s : PS D) (d : Datum) : PS D :=
  (if d.name ∈ s.reg then { s with st := removeConstraint s.st d.name } else { s with reg := s.reg ++ [d.name] } : PS D).add
    [d.name] (distFor d.central d.right d.left)

theorem pdgStep_pos {s : PS D} {d : Datum} (h : d.Pos) : pdgStep s d = (afterStep s d, none) := by
  unfold pdgStep afterStep
  simp only
  rw [distOf_pos h]

theorem good_remove {s : PS D} (hg : s.Good) (n : String) :
    ({ s with st := removeConstraint s.st n } : PS D).Good := by
  intro p i r h
  simp only [removeConstraint, Dict.get?_erase] at h
  split at h
  · cases h
  · exact hg p i r h

theorem afterStep_spec {s : PS D} (hg : s.Good) (d : Datum) :
    (afterStep s d).Good ∧
    (∀ p, (afterStep s d).view p = if p = d.name then some (0, distFor d.central d.right d.left) else s.view p) ∧
    (∀ p, p ∈ (afterStep s d).reg ↔ p ∈ s.reg ∨ p = d.name) := by
  unfold afterStep
  by_cases hm : d.name ∈ s.reg
  · simp only [hm, if_true]
    have hg' := good_remove hg d.name
    refine ⟨good_add hg' _ _, ?_, ?_⟩
    · intro p
      rw [view_add hg', lastIdx_single]
      by_cases hp : d.name = p
      · rw [if_pos hp, if_pos hp.symm]
      · rw [if_neg hp, if_neg (fun h => hp h.symm)]
        simp only [PS.view, removeConstraint, Dict.get?_erase]
        rw [if_neg (fun h => hp (by simpa using h))]
    · intro p
      simp only [PS.add]
      constructor
      · exact Or.inl
      · rintro (h | rfl)
        · exact h
        · exact hm
  · simp only [hm, if_false]
    have hg' : ({ s with reg := s.reg ++ [d.name] } : PS D).Good := hg
    refine ⟨good_add hg' _ _, ?_, ?_⟩
    · intro p
      rw [view_add hg', lastIdx_single]
      by_cases hp : d.name = p
      · rw [if_pos hp, if_pos hp.symm]
      · rw [if_neg hp, if_neg (fun h => hp h.symm)]
        rfl
    · intro p
      simp only [PS.add, List.mem_append, List.mem_singleton]

theorem loop_pdgStep {s : PS D} (hg : s.Good) (ds : List Datum) (hn : (ds.map Datum.name).Nodup) (hp : ∀ d ∈ ds, d.Pos) :
    ∃ s', loop pdgStep s ds = (s', none) ∧ s'.Good ∧
      (∀ d ∈ ds, s'.view d.name = some (0, distFor d.central d.right d.left)) ∧
      (∀ p, p ∉ ds.map Datum.name → s'.view p = s.view p) ∧
      (∀ p, p ∈ s'.reg ↔ p ∈ s.reg ∨ p ∈ ds.map Datum.name) := by
  induction ds generalizing s with
  | nil => exact ⟨s, rfl, hg, by simp, by simp, by simp⟩
  | cons a l ih =>
    rw [List.map_cons, List.nodup_cons] at hn
    obtain ⟨g1, v1, r1⟩ := afterStep_spec hg a
    obtain ⟨s', i1, i2, i3, i4, i5⟩ := ih g1 hn.2 (fun d hd => hp d (by simp [hd]))
    refine ⟨s', ?_, i2, ?_, ?_, ?_⟩
    · simp only [loop]
      rw [pdgStep_pos (hp a (by simp))]
      exact i1
    · intro d hd
      rcases List.mem_cons.1 hd with rfl | hm
      · rw [i4 _ hn.1, v1, if_pos rfl]
      · exact i3 d hm
    · intro p hpn
      rw [List.map_cons, List.mem_cons, not_or] at hpn
      rw [i4 p hpn.2, v1, if_neg hpn.1]
    · intro p
      rw [i5, r1, List.map_cons, List.mem_cons, or_assoc]

/-- The data of one particle. -/
theorem particle_data {p : Particle} (hc : Complete p) :
    ∃ ds : List Datum, (∀ s : PS D, pdgParticle s p = loop pdgStep s ds) ∧ (∀ d ∈ ds, d.Pos) ∧
      (ds.map Datum.name).Nodup ∧ (∀ d ∈ ds, d.name = "m_" ++ p.name ∨ d.name = "tau_" ++ p.name) ∧
      ∀ n c r l, Reads [p] n c r l ↔ ⟨n, c, r, l⟩ ∈ ds := by
  obtain ⟨⟨m, u, l, hm, hu, hl, pu, pl⟩, h1, h2, h3⟩ := hc
  have hM : flavioM p = .ok ⟨"m_" ++ p.name, m / 1000, u / 1000, l / 1000⟩ := by
    unfold flavioM
    rw [hm, hu, hl]
    show Except.ok _ = _
    norm_num [div_eq_mul_inv]
  have hR1 : ∀ n c r lo, (∃ m u l, p.mass = some m ∧ p.massUpper = some u ∧ p.massLower = some l ∧
      n = "m_" ++ p.name ∧ c = m / 1000 ∧ r = u / 1000 ∧ lo = l / 1000) ↔
      (⟨n, c, r, lo⟩ : Datum) = ⟨"m_" ++ p.name, m / 1000, u / 1000, l / 1000⟩ := by
    intro n c r lo
    rw [hm, hu, hl]
    constructor
    · rintro ⟨m', u', l', e1, e2, e3, rfl, rfl, rfl, rfl⟩
      cases e1; cases e2; cases e3; rfl
    · intro h
      injection h with a b c d
      exact ⟨m, u, l, rfl, rfl, rfl, a, b, c, d⟩
  by_cases hk : unknown p.width ∨ unknown p.widthUpper ∨ unknown p.widthLower
  · have hT : flavioTau p = .ok none := by unfold flavioTau; rw [if_pos hk]
    refine ⟨[⟨"m_" ++ p.name, m / 1000, u / 1000, l / 1000⟩], ?_, ?_, by simp, ?_, ?_⟩
    · intro s; unfold pdgParticle; rw [hM, hT]; rfl
    · intro d hd
      rw [List.mem_singleton] at hd; subst hd
      exact ⟨div_pos pu (by norm_num), div_pos pl (by norm_num)⟩
    · intro d hd
      rw [List.mem_singleton] at hd; subst hd; exact Or.inl rfl
    · intro n c r lo
      rw [List.mem_singleton, ← hR1]
      unfold Reads
      simp only [List.mem_singleton, exists_eq_left]
      constructor
      · rintro (h | ⟨g, u', l', e1, e2, e3, n1, n2, n3, -⟩)
        · exact h
        · exfalso
          unfold unknown at hk
          rw [e1, e2, e3] at hk
          simp only [Option.some.injEq, reduceCtorEq, false_or] at hk
          rcases hk with h | h | h
          · exact n1 h
          · exact n2 h
          · exact n3 h
      · exact Or.inl
  · have hk' := hk
    unfold unknown at hk'
    push Not at hk'
    obtain ⟨⟨a1, b1⟩, ⟨a2, b2⟩, a3, b3⟩ := hk'
    obtain ⟨g, hg⟩ := Option.ne_none_iff_exists'.1 a1
    obtain ⟨gu, hgu⟩ := Option.ne_none_iff_exists'.1 a2
    obtain ⟨gl, hgl⟩ := Option.ne_none_iff_exists'.1 a3
    rw [hg] at b1; rw [hgu] at b2; rw [hgl] at b3
    have q1 : 0 < g := lt_of_le_of_ne (h1 g hg) (fun h => b1 (by rw [← h]))
    have q2 : 0 < gu := lt_of_le_of_ne (h2 gu hgu) (fun h => b2 (by rw [← h]))
    have q3 : 0 < gl := lt_of_le_of_ne (h3 gl hgl) (fun h => b3 (by rw [← h]))
    have hT : flavioTau p = .ok (some ⟨"tau_" ++ p.name, 1000 / g, gu / g ^ 2 * 1000, gl / g ^ 2 * 1000⟩) := by
      unfold flavioTau
      rw [if_neg hk, hg, hgu, hgl]
      show Except.ok _ = _
      have e1 : 1 / (g * 1e-3) = 1000 / g := by field_simp; norm_num
      have e2 : ∀ y : ℝ, y * 1e-3 / (g * 1e-3) ^ 2 = y / g ^ 2 * 1000 := by
        intro y; norm_num; field_simp
      rw [e1, e2, e2]
    refine ⟨[⟨"m_" ++ p.name, m / 1000, u / 1000, l / 1000⟩,
      ⟨"tau_" ++ p.name, 1000 / g, gu / g ^ 2 * 1000, gl / g ^ 2 * 1000⟩], ?_, ?_, ?_, ?_, ?_⟩
    · intro s; unfold pdgParticle; rw [hM, hT]; rfl
    · intro d hd
      simp only [List.mem_cons, List.not_mem_nil, or_false] at hd
      rcases hd with rfl | rfl
      · exact ⟨div_pos pu (by norm_num), div_pos pl (by norm_num)⟩
      · exact ⟨mul_pos (div_pos q2 (pow_pos q1 2)) (by norm_num), mul_pos (div_pos q3 (pow_pos q1 2)) (by norm_num)⟩
    · simp only [List.map_cons, List.map_nil, List.nodup_cons, List.mem_singleton, List.not_mem_nil, not_false_eq_true,
        List.nodup_nil, and_true]
      intro h
      have := congrArg String.toList h
      rw [String.toList_append, String.toList_append] at this
      have h2 := congrArg List.head? this
      revert h2
      simp
    · intro d hd
      simp only [List.mem_cons, List.not_mem_nil, or_false] at hd
      rcases hd with rfl | rfl
      · exact Or.inl rfl
      · exact Or.inr rfl
    · intro n c r lo
      simp only [List.mem_cons, List.not_mem_nil, or_false]
      rw [← hR1]
      unfold Reads
      simp only [List.mem_singleton, exists_eq_left]
      refine or_congr Iff.rfl ?_
      constructor
      · rintro ⟨g', u', l', e1, e2, e3, n1, n2, n3, rfl, rfl, rfl, rfl⟩
        rw [hg] at e1; rw [hgu] at e2; rw [hgl] at e3
        cases e1; cases e2; cases e3; rfl
      · intro h
        injection h with a b c d
        exact ⟨g, gu, gl, hg, hgu, hgl, q1.ne', q2.ne', q3.ne', a, b, c, d⟩

theorem prefix_inj (x : String) {a b : String} (h : x ++ a = x ++ b) : a = b := by
  have := congrArg String.toList h
  rw [String.toList_append, String.toList_append] at this
  exact String.toList_injective (List.append_cancel_left this)

theorem m_ne_tau (a b : String) : "m_" ++ a ≠ "tau_" ++ b := by
  intro h
  have := congrArg String.toList h
  rw [String.toList_append, String.toList_append] at this
  have h2 := congrArg List.head? this
  revert h2
  simp

theorem readPdg_loop {s : PS D} (ps : List Particle) (hc : ∀ p ∈ ps, Complete p) (hn : (ps.map Particle.name).Nodup) :
    ∃ ds : List Datum, readPdg s ps = loop pdgStep s ds ∧ (∀ d ∈ ds, d.Pos) ∧ (ds.map Datum.name).Nodup ∧
      (∀ d ∈ ds, ∃ p ∈ ps, d.name = "m_" ++ p.name ∨ d.name = "tau_" ++ p.name) ∧
      ∀ n c r l, Reads ps n c r l ↔ ⟨n, c, r, l⟩ ∈ ds := by
  suffices H : ∃ ds : List Datum, (∀ s : PS D, readPdg s ps = loop pdgStep s ds) ∧ (∀ d ∈ ds, d.Pos) ∧
      (ds.map Datum.name).Nodup ∧ (∀ d ∈ ds, ∃ p ∈ ps, d.name = "m_" ++ p.name ∨ d.name = "tau_" ++ p.name) ∧
      ∀ n c r l, Reads ps n c r l ↔ ⟨n, c, r, l⟩ ∈ ds by
    obtain ⟨ds, h, r⟩ := H; exact ⟨ds, h s, r⟩
  induction ps with
  | nil => exact ⟨[], fun s => rfl, by simp, by simp, by simp, by simp [Reads]⟩
  | cons p l ih =>
    rw [List.map_cons, List.nodup_cons] at hn
    obtain ⟨ds, i1, i2, i3, i4, i5⟩ := ih (fun q hq => hc q (by simp [hq])) hn.2
    obtain ⟨dp, j1, j2, j3, j4, j5⟩ := particle_data (D := D) (hc p (by simp))
    refine ⟨dp ++ ds, ?_, ?_, ?_, ?_, ?_⟩
    · intro s
      rw [loop_append, ← j1]
      show loop pdgParticle s (p :: l) = _
      simp only [loop]
      rcases h : pdgParticle s p with ⟨s', _ | e⟩
      · simp only
        exact i1 s'
      · rfl
    · intro d hd
      rcases List.mem_append.1 hd with h | h
      · exact j2 d h
      · exact i2 d h
    · rw [List.map_append, List.nodup_append]
      refine ⟨j3, i3, ?_⟩
      intro a ha b hb hab
      subst hab
      obtain ⟨d, hd, rfl⟩ := List.mem_map.1 ha
      obtain ⟨d', hd', he⟩ := List.mem_map.1 hb
      obtain ⟨q, hq, hq'⟩ := i4 d' hd'
      apply hn.1
      rw [List.mem_map]
      refine ⟨q, hq, ?_⟩
      rcases j4 d hd with h | h <;> rcases hq' with h' | h' <;> rw [he, h] at h'
      · exact (prefix_inj _ h').symm
      · exact absurd h' (m_ne_tau _ _)
      · exact absurd h'.symm (m_ne_tau _ _)
      · exact (prefix_inj _ h').symm
    · intro d hd
      rcases List.mem_append.1 hd with h | h
      · exact ⟨p, by simp, j4 d h⟩
      · obtain ⟨q, hq, h'⟩ := i4 d h
        exact ⟨q, by simp [hq], h'⟩
    · intro n c r lo
      rw [List.mem_append, ← j5, ← i5]
      unfold Reads
      simp only [List.mem_cons, List.mem_singleton, List.not_mem_nil, or_false, exists_eq_or_imp, exists_eq_left]

/-- **C100 (PDG)** For complete data of different particles `read_pdg` succeeds; each mass and (where known) lifetime then has
the normal or asymmetric normal distribution, whatever was there before, the parameter exists, and no other parameter is
touched. -/
theorem C100_pdg_partial (s : PS D) (hg : s.Good) (ps : List Particle) (hc : ∀ p ∈ ps, Complete p)
    (hn : (ps.map Particle.name).Nodup) :
    ∃ s', readPdg s ps = (s', none) ∧ s'.Good ∧
      (∀ n c r l, Reads ps n c r l → 0 < r ∧ 0 < l ∧ n ∈ s'.reg ∧ s'.view n = some (0, distFor c r l)) ∧
      (∀ n, (∀ c r l, ¬ Reads ps n c r l) → s'.view n = s.view n ∧ (n ∈ s'.reg ↔ n ∈ s.reg)) := by
  obtain ⟨ds, h1, h2, h3, -, h5⟩ := readPdg_loop (s := s) ps hc hn
  obtain ⟨s', i1, i2, i3, i4, i5⟩ := loop_pdgStep hg ds h3 h2
  refine ⟨s', by rw [h1, i1], i2, ?_, ?_⟩
  · intro n c r l h
    have hm := (h5 n c r l).1 h
    exact ⟨(h2 _ hm).1, (h2 _ hm).2, (i5 n).2 (Or.inr (List.mem_map.2 ⟨_, hm, rfl⟩)), i3 _ hm⟩
  · intro n h
    have hnm : n ∉ ds.map Datum.name := by
      intro hm
      obtain ⟨⟨n', c, r, l⟩, hd, rfl⟩ := List.mem_map.1 hm
      exact h c r l ((h5 _ c r l).2 hd)
    exact ⟨i4 n hnm, by rw [i5]; simp [hnm]⟩

/-- **C100 (PDG, order)** The order in which the set of particles is visited does not matter, and reading the same table
again changes nothing. -/
theorem C100_pdg_order (s s₁ s₂ s₃ : PS D) (hg : s.Good) (ps qs : List Particle) (hperm : ps.Perm qs)
    (hc : ∀ p ∈ ps, Complete p) (hn : (ps.map Particle.name).Nodup)
    (h₁ : readPdg s ps = (s₁, none)) (h₂ : readPdg s qs = (s₂, none)) (h₃ : readPdg s₁ qs = (s₃, none)) (n : String) :
    s₁.view n = s₂.view n ∧ (n ∈ s₁.reg ↔ n ∈ s₂.reg) ∧ s₃.view n = s₁.view n ∧ (n ∈ s₃.reg ↔ n ∈ s₁.reg) := by
  have hc' : ∀ p ∈ qs, Complete p := fun p hp => hc p (hperm.mem_iff.2 hp)
  have hn' : (qs.map Particle.name).Nodup := (hperm.map _).nodup_iff.1 hn
  have hr : ∀ n c r l, Reads ps n c r l ↔ Reads qs n c r l := by
    intro n c r l; unfold Reads
    simp only [hperm.mem_iff]
  obtain ⟨t₁, e₁, g₁, a₁, b₁⟩ := C100_pdg_partial s hg ps hc hn
  obtain ⟨t₂, e₂, g₂, a₂, b₂⟩ := C100_pdg_partial s hg qs hc' hn'
  rw [h₁] at e₁; cases e₁
  rw [h₂] at e₂; cases e₂
  obtain ⟨t₃, e₃, g₃, a₃, b₃⟩ := C100_pdg_partial s₁ g₁ qs hc' hn'
  rw [h₃] at e₃; cases e₃
  by_cases h : ∃ c r l, Reads ps n c r l
  · obtain ⟨c, r, l, h⟩ := h
    obtain ⟨-, -, p1, v1⟩ := a₁ n c r l h
    obtain ⟨-, -, p2, v2⟩ := a₂ n c r l ((hr _ _ _ _).1 h)
    obtain ⟨-, -, p3, v3⟩ := a₃ n c r l ((hr _ _ _ _).1 h)
    rw [v1, v2, v3]
    simp [p1, p2, p3]
  · push Not at h
    obtain ⟨v1, p1⟩ := b₁ n h
    obtain ⟨v2, p2⟩ := b₂ n (fun c r l => by rw [← hr]; exact h c r l)
    obtain ⟨v3, p3⟩ := b₃ n (fun c r l => by rw [← hr]; exact h c r l)
    exact ⟨v1.trans v2.symm, p1.trans p2.symm, v3, p3⟩

/-- **C100 (PDG, missing data)** A particle without a mass (or mass error) makes `read_pdg` fail with `TypeError`; the particles
before it have been read. -/
theorem C100_pdg_missing (s s' : PS D) (pre post : List Particle) (p : Particle)
    (hpre : readPdg s pre = (s', none)) (hp : p.mass = none ∨ p.massUpper = none ∨ p.massLower = none) :
    readPdg s (pre ++ p :: post) = (s', some .typeError) := by
  unfold readPdg at hpre ⊢
  rw [loop_append, hpre]
  simp only [loop]
  have : flavioM p = .error .typeError := by
    unfold flavioM
    cases h1 : p.mass with
    | none => rfl
    | some m =>
      cases h2 : p.massUpper with
      | none => rfl
      | some u =>
        cases h3 : p.massLower with
        | none => rfl
        | some l => rw [h1, h2, h3] at hp; simp at hp
  have h2 : pdgParticle s' p = (s', some .typeError) := by unfold pdgParticle; rw [this]
  rw [h2]

/-- **C100 (PDG, lifetime errors are interchanged)** The lifetime falls with the width: to first order its upper deviation is
given by the lower deviation of the width, and vice versa.  The code attaches them the other way round: its deviations are
right if and only if those of the width are equal; and if the upper deviation is larger than `gl g / (g - gl)`, the code's
"one sigma up" lifetime is longer than the one of the smallest width. -/
theorem C100_pdg_lifetime_errors (n : String) (g gu gl : ℝ) (hg : 0 < g) (hu : 0 < gu) (hl : 0 < gl) (hlt : gl < g) :
    (∀ c r l, Reads [⟨n, some 1, some 1, some 1, some g, some gu, some gl⟩] ("tau_" ++ n) c r l →
      c = 1000 / g ∧
      ((r = gl / g ^ 2 * 1000 ∧ l = gu / g ^ 2 * 1000) ↔ gu = gl) ∧
      (gl * g / (g - gl) < gu → c + r > 1000 / (g - gl))) ∧
    deriv (fun x : ℝ => 1000 / x) g < 0 := by
  constructor
  · intro c r l h
    unfold Reads at h
    simp only [List.mem_singleton, exists_eq_left, Option.some.injEq] at h
    rcases h with ⟨_, _, _, _, _, _, h, -⟩ | ⟨_, _, _, rfl, rfl, rfl, -, -, -, -, rfl, rfl, rfl⟩
    · exact absurd h.symm (m_ne_tau _ _)
    · have hg2 : g ^ 2 ≠ 0 := (pow_pos hg 2).ne'
      refine ⟨rfl, ⟨?_, ?_⟩, ?_⟩
      · rintro ⟨h, -⟩
        field_simp at h
        exact h
      · rintro rfl; exact ⟨rfl, rfl⟩
      · intro h
        have hd : 0 < g - gl := by linarith
        rw [div_lt_iff₀ hd] at h
        rw [gt_iff_lt, div_lt_iff₀ hd]
        have : (1000 / g + gu / g ^ 2 * 1000) * (g - gl) = 1000 * ((g + gu) * (g - gl)) / g ^ 2 := by
          field_simp
        rw [this, lt_div_iff₀ (pow_pos hg 2)]
        nlinarith
  · have : HasDerivAt (fun x : ℝ => 1000 / x) (-(1000 / g ^ 2)) g := by
      have := (hasDerivAt_inv hg.ne').const_mul (1000 : ℝ)
      have e : (fun x : ℝ => 1000 / x) = fun x => 1000 * x⁻¹ := by funext x; rw [div_eq_mul_inv]
      rw [e]
      exact this.congr_deriv (by field_simp)
    rw [this.deriv]
    exact neg_neg_of_pos (div_pos (by norm_num) (pow_pos hg 2))

/-- **C100 (PDG, names)** Each flavio name belongs to one PDG number and the number leads back to the name. -/
theorem C100_pdg_names : (pdgTable.map Prod.fst).Nodup ∧ (pdgTable.map Prod.snd).Nodup ∧
    ∀ e, e ∈ pdgTable ↔ flavioName e.2 = some e.1 := by
  have h1 : (pdgTable.map Prod.snd).Nodup := by decide
  refine ⟨by decide, h1, ?_⟩
  intro e
  unfold flavioName
  have hk : ((pdgTable.map fun e => (e.2, e.1)).map Prod.fst).Nodup := by
    rw [List.map_map]; exact h1
  rw [Dict.ofPairs_of_nodup _ hk]
  constructor
  · intro h
    exact Dict.get?_of_mem hk (List.mem_map.2 ⟨e, h, rfl⟩)
  · intro h
    have := Dict.mem_of_get? h
    obtain ⟨e', he', h'⟩ := List.mem_map.1 this
    cases e'; cases e
    simp only [Prod.mk.injEq] at h'
    obtain ⟨rfl, rfl⟩ := h'
    exact he'

/-- Complete data. -/
example : Complete ⟨"B0", some 5279, some 1, some 1, some 4, none, none⟩ :=
  ⟨⟨_, _, _, rfl, rfl, rfl, by norm_num, by norm_num⟩, by simp, by simp, by simp⟩

end Verif.Parameters
