import Verif.Physics.Eft
import Verif.Py.ExceptLemmas
import Mathlib.Data.Set.Insert
import Mathlib.Tactic.Common
import Mathlib.Tactic.NormNum
import Mathlib.Tactic.NormNum.OfScientific
/-!
# Which Wilson coefficients a prediction depends on
-/
set_option linter.unusedVariables false
set_option linter.unusedSimpArgs false
set_option linter.unusedSectionVars false
namespace Verif.DependentWcs

open Verif.Py
open Verif.Eft

/-- The arguments of one call of `get_wc` or `get_wcxf` by a prediction function
(/repo/flavio/physics/eft.py:181,214). -/
structure Query where
  sector : String
  scale : ℝ
  eft : String
  basis : String
  nfOut : Option Int

/-- A prediction function as seen by the Wilson coefficient object: it calls `get_wc` or `get_wcxf`, may use the
answers to decide what to do next, and finally returns or raises.  Simplification: prediction functions do not catch
exceptions and use the object only through these two methods (true of all of /repo/flavio/physics; called by
/repo/flavio/classes.py `Prediction.get_par`). -/
inductive WProg (A : Type) where
  | ret (r : Except PyErr A)
  | getWc (q : Query) (f : Dict String ℂ → WProg A)
  | getWcxf (q : Query) (f : WC → WProg A)

/-- The arguments of a call of `match_run` (/repo/flavio/functions.py:136-137). -/
structure MatchRunCall where
  scale : ℝ
  eft : String
  basis : String
  sectors : MrSectors

variable {A : Type}

/-- `np_prediction` with an ordinary object (/repo/flavio/functions.py:12-25). -/
noncomputable def predict (env : Env) (o : WilsonCoefficients) : WProg A → Except PyErr A
  | .ret r => r
  | .getWc q f => do
      let d ← Eft.getWc env o q.sector q.scale q.eft q.basis q.nfOut
      predict env o (f d)
  | .getWcxf q f => do
      let w ← Eft.getWcxf env o q.sector q.scale q.eft q.basis q.nfOut
      predict env o (f w)

/-- `AwareWilson.match_run`: the arguments are recorded before the method of the parent class is called
(/repo/flavio/functions.py:136-138). -/
def awareMatchRun (env : Env) (w : WC) (c : MatchRunCall) (t : Set MatchRunCall) :
    Except PyErr WC × Set MatchRunCall :=
  (env.matchRun w c.scale c.eft c.basis c.sectors, insert c t)

/-- `get_wcxf` of an `AwareWilson` (inherited; calls the overridden `match_run`)
(/repo/flavio/physics/eft.py:181-212). -/
def awareGetWcxf (env : Env) (o : WilsonCoefficients) (q : Query) (t : Set MatchRunCall) :
    Except PyErr WC × Set MatchRunCall :=
  match chooseEft q.eft q.nfOut with
  | .error e => (.error e, t)
  | .ok eft =>
    match o.wc with
    | none => (.ok ⟨eft, q.basis, q.scale, []⟩, t)
    | some w => awareMatchRun env w ⟨q.scale, eft, q.basis, mrSectors q.sector⟩ t

/-- `get_wc` of an `AwareWilson` (inherited) (/repo/flavio/physics/eft.py:214-241). -/
noncomputable def awareGetWc (env : Env) (o : WilsonCoefficients) (q : Query) (t : Set MatchRunCall) :
    Except PyErr (Dict String ℂ) × Set MatchRunCall :=
  match coeffs env q.sector q.eft q.basis with
  | .error e => (.error e, t)
  | .ok cs =>
    if isSM o then (.ok (zeros cs), t)
    else
      match awareGetWcxf env o q t with
      | (.error e, t) => (.error e, t)
      | (.ok w, t) => (.ok (update (zeros cs) w.dict), t)

/-- A prediction with an `AwareWilson` (/repo/flavio/functions.py:129-138). -/
noncomputable def awarePredict (env : Env) (o : WilsonCoefficients) :
    WProg A → Set MatchRunCall → Except PyErr A × Set MatchRunCall
  | .ret r, t => (r, t)
  | .getWc q f, t =>
    match awareGetWc env o q t with
    | (.error e, t) => (.error e, t)
    | (.ok d, t) => awarePredict env o (f d) t
  | .getWcxf q f, t =>
    match awareGetWcxf env o q t with
    | (.error e, t) => (.error e, t)
    | (.ok w, t) => awarePredict env o (f w) t

/-- The object used for tracking: one non-zero coefficient (/repo/flavio/functions.py:167-169). -/
noncomputable def tracked : WilsonCoefficients :=
  setInitial init [("G", .num 1e-30)] 91.1876 "SMEFT" "Warsaw"

/-- `get_dependent_wcs` (/repo/flavio/functions.py:155-172). -/
noncomputable def getDependentWcs (env : Env) (prog : WProg A) : Except PyErr (Set MatchRunCall) :=
  match awarePredict env tracked prog ∅ with
  | (.error e, _) => .error e
  | (.ok _, t) => .ok t

/-! ## Specification -/

/-- Specification: the call of `match_run` that a query leads to; none if `nf_out` is not valid. -/
def Query.Leads (q : Query) (c : MatchRunCall) : Prop :=
  chooseEft q.eft q.nfOut = .ok c.eft ∧ c.scale = q.scale ∧ c.basis = q.basis ∧ c.sectors = mrSectors q.sector

/-- Specification: in a run with the object `o`, the prediction calls `match_run` with `c`. -/
inductive Calls (env : Env) (o : WilsonCoefficients) (c : MatchRunCall) : WProg A → Prop
  | hereWc {q f cs} (h : coeffs env q.sector q.eft q.basis = .ok cs) (hs : isSM o = false) (hq : q.Leads c) :
      Calls env o c (.getWc q f)
  | hereWcxf {q f w} (h : o.wc = some w) (hq : q.Leads c) : Calls env o c (.getWcxf q f)
  | laterWc {q f d} (h : Eft.getWc env o q.sector q.scale q.eft q.basis q.nfOut = .ok d)
      (hl : Calls env o c (f d)) : Calls env o c (.getWc q f)
  | laterWcxf {q f w} (h : Eft.getWcxf env o q.sector q.scale q.eft q.basis q.nfOut = .ok w)
      (hl : Calls env o c (f w)) : Calls env o c (.getWcxf q f)

/-- Specification: the queries of the program do not depend on the answers: along every path they are `qs`. -/
inductive NonAdaptive : WProg A → List Query → Prop
  | ret (r) : NonAdaptive (.ret r) []
  | getWc {q f qs} (h : ∀ d, NonAdaptive (f d) qs) : NonAdaptive (.getWc q f) (q :: qs)
  | getWcxf {q f qs} (h : ∀ w, NonAdaptive (f w) qs) : NonAdaptive (.getWcxf q f) (q :: qs)

/-- Specification: the two objects have the same running and matching results for the calls in `t`. -/
def AgreeOn (env : Env) (w₁ w₂ : WC) (t : Set MatchRunCall) : Prop :=
  ∀ c ∈ t, env.matchRun w₁ c.scale c.eft c.basis c.sectors = env.matchRun w₂ c.scale c.eft c.basis c.sectors

/-! ## Lemmas -/

theorem aware_wcxf_fst (env : Env) (o : WilsonCoefficients) (q : Query) (t) :
    (awareGetWcxf env o q t).1 = Eft.getWcxf env o q.sector q.scale q.eft q.basis q.nfOut := by
  unfold awareGetWcxf Eft.getWcxf
  cases chooseEft q.eft q.nfOut with
  | error e => rfl
  | ok eft =>
    cases h : o.wc with
    | none => rfl
    | some w => rfl

theorem aware_wc_fst (env : Env) (o : WilsonCoefficients) (q : Query) (t) :
    (awareGetWc env o q t).1 = Eft.getWc env o q.sector q.scale q.eft q.basis q.nfOut := by
  unfold awareGetWc Eft.getWc
  cases coeffs env q.sector q.eft q.basis with
  | error e => rfl
  | ok cs =>
    show (if isSM o then _ else _ : _ × _).1 = if isSM o then _ else _
    by_cases hs : isSM o = true
    · rw [if_pos hs, if_pos hs]
    · rw [if_neg hs, if_neg hs, ← aware_wcxf_fst env o q t]
      generalize awareGetWcxf env o q t = x
      obtain ⟨r, t'⟩ := x
      cases r <;> rfl

theorem aware_wcxf_snd (env : Env) (o : WilsonCoefficients) (q : Query) (t) (c) :
    c ∈ (awareGetWcxf env o q t).2 ↔ c ∈ t ∨ (∃ w, o.wc = some w) ∧ q.Leads c := by
  unfold awareGetWcxf Query.Leads
  cases chooseEft q.eft q.nfOut with
  | error e => simp
  | ok eft =>
    cases h : o.wc with
    | none => simp
    | some w =>
      obtain ⟨c1, c2, c3, c4⟩ := c
      simp only [awareMatchRun, Set.mem_insert_iff, MatchRunCall.mk.injEq, Except.ok.injEq]
      constructor
      · rintro (⟨rfl, rfl, rfl, rfl⟩ | h)
        · exact Or.inr ⟨⟨w, rfl⟩, rfl, rfl, rfl, rfl⟩
        · exact Or.inl h
      · rintro (h | ⟨-, rfl, rfl, rfl, rfl⟩)
        · exact Or.inr h
        · exact Or.inl ⟨rfl, rfl, rfl, rfl⟩

theorem some_of_not_sm {o : WilsonCoefficients} (h : isSM o = false) : ∃ w, o.wc = some w := by
  cases hw : o.wc with
  | none => simp [isSM, hw] at h
  | some w => exact ⟨w, rfl⟩

theorem aware_wc_snd (env : Env) (o : WilsonCoefficients) (q : Query) (t) (c) :
    c ∈ (awareGetWc env o q t).2 ↔
      c ∈ t ∨ (∃ cs, coeffs env q.sector q.eft q.basis = .ok cs) ∧ isSM o = false ∧ q.Leads c := by
  unfold awareGetWc
  cases coeffs env q.sector q.eft q.basis with
  | error e => simp
  | ok cs =>
    by_cases hs : isSM o = true
    · simp [hs]
    · have hs' : isSM o = false := by simpa using hs
      have : (if isSM o then ((.ok (zeros cs), t) : Except PyErr (Dict String ℂ) × Set MatchRunCall) else
          match awareGetWcxf env o q t with
          | (.error e, t) => (.error e, t)
          | (.ok w, t) => (.ok (update (zeros cs) w.dict), t)).2 = (awareGetWcxf env o q t).2 := by
        rw [if_neg hs]
        generalize awareGetWcxf env o q t = x
        obtain ⟨r, t'⟩ := x
        cases r <;> rfl
      simp only [this, aware_wcxf_snd]
      simp [hs', some_of_not_sm hs']

/-! ## Theorems -/

/-- **C157 (tracking does not change the prediction).** With the recording object the prediction is the one with the
same values in an ordinary object. -/
theorem C157_same_prediction (env : Env) (o : WilsonCoefficients) (prog : WProg A) (t : Set MatchRunCall) :
    (awarePredict env o prog t).1 = predict env o prog := by
  induction prog generalizing t with
  | ret r => rfl
  | getWc q f ih =>
    unfold awarePredict predict
    rw [← aware_wc_fst env o q t]
    generalize awareGetWc env o q t = x
    obtain ⟨r, t'⟩ := x
    cases r with
    | error e => rfl
    | ok d => exact ih d t'
  | getWcxf q f ih =>
    unfold awarePredict predict
    rw [← aware_wcxf_fst env o q t]
    generalize awareGetWcxf env o q t = x
    obtain ⟨r, t'⟩ := x
    cases r with
    | error e => rfl
    | ok d => exact ih d t'

theorem recorded (env : Env) (o : WilsonCoefficients) (prog : WProg A) (t : Set MatchRunCall) (c : MatchRunCall) :
    c ∈ (awarePredict env o prog t).2 ↔ c ∈ t ∨ Calls env o c prog := by
  induction prog generalizing t with
  | ret r =>
    constructor
    · exact Or.inl
    · rintro (h | h)
      · exact h
      · nomatch h
  | getWc q f ih =>
    have h1 := aware_wc_fst env o q t
    have h2 := aware_wc_snd env o q t c
    unfold awarePredict
    generalize awareGetWc env o q t = x at h1 h2
    obtain ⟨r, t'⟩ := x
    simp only at h1 h2
    have key : c ∈ t' ∨ (∃ d, r = .ok d ∧ Calls env o c (f d)) ↔ c ∈ t ∨ Calls env o c (.getWc q f) := by
      rw [h2]
      constructor
      · rintro ((h | ⟨⟨cs, hc⟩, hs, hq⟩) | ⟨d, hd, hl⟩)
        · exact Or.inl h
        · exact Or.inr (.hereWc hc hs hq)
        · exact Or.inr (.laterWc (h1.symm.trans hd) hl)
      · rintro (h | h)
        · exact Or.inl (Or.inl h)
        · cases h with
          | hereWc hc hs hq => exact Or.inl (Or.inr ⟨⟨_, hc⟩, hs, hq⟩)
          | laterWc hd hl => exact Or.inr ⟨_, h1.trans hd, hl⟩
    rw [← key]
    cases r with
    | error e => simp
    | ok d => simp [ih d t']
  | getWcxf q f ih =>
    have h1 := aware_wcxf_fst env o q t
    have h2 := aware_wcxf_snd env o q t c
    unfold awarePredict
    generalize awareGetWcxf env o q t = x at h1 h2
    obtain ⟨r, t'⟩ := x
    simp only at h1 h2
    have key : c ∈ t' ∨ (∃ d, r = .ok d ∧ Calls env o c (f d)) ↔ c ∈ t ∨ Calls env o c (.getWcxf q f) := by
      rw [h2]
      constructor
      · rintro ((h | ⟨⟨w, hw⟩, hq⟩) | ⟨d, hd, hl⟩)
        · exact Or.inl h
        · exact Or.inr (.hereWcxf hw hq)
        · exact Or.inr (.laterWcxf (h1.symm.trans hd) hl)
      · rintro (h | h)
        · exact Or.inl (Or.inl h)
        · cases h with
          | hereWcxf hw hq => exact Or.inl (Or.inr ⟨⟨_, hw⟩, hq⟩)
          | laterWcxf hd hl => exact Or.inr ⟨_, h1.trans hd, hl⟩
    rw [← key]
    cases r with
    | error e => simp
    | ok d => simp [ih d t']

/-- **C157 (exactness).** The set returned consists of exactly the arguments of the `match_run` calls of the
prediction with the tracked object; there is a result exactly if the prediction gives a value. -/
theorem C157_exact (env : Env) (prog : WProg A) :
    (∀ e, getDependentWcs env prog = .error e ↔ predict env tracked prog = .error e) ∧
    (∀ t, getDependentWcs env prog = .ok t → ∀ c, c ∈ t ↔ Calls env tracked c prog) := by
  have h1 := C157_same_prediction env tracked prog ∅
  have h2 := recorded env tracked prog ∅
  unfold getDependentWcs
  generalize awarePredict env tracked prog ∅ = x at h1 h2 ⊢
  obtain ⟨r, t'⟩ := x
  simp only at h1 h2
  rw [← h1]
  cases r with
  | error e => simp
  | ok a =>
    refine ⟨by simp, fun t ht c => ?_⟩
    injection ht with ht
    rw [← ht, h2 c]
    simp

theorem tracked_not_sm : isSM tracked = false := by
  simp only [isSM, tracked, setInitial]
  simp [WCVal.truthy]
  norm_num

/-- **C157 (no Wilson coefficients).** If the set is empty, the prediction is the same for every Wilson coefficient
object (also for the SM), whether or not the prediction function is adaptive. -/
theorem C157_empty (env : Env) (prog : WProg A) (h : getDependentWcs env prog = .ok ∅) (o₁ o₂ : WilsonCoefficients) :
    predict env o₁ prog = predict env o₂ prog := by
  have h2 := (C157_exact env prog).2 _ h
  have h1 : ∀ e, predict env tracked prog ≠ .error e := by
    intro e he
    rw [((C157_exact env prog).1 e).2 he] at h
    cases h
  cases prog with
  | ret r => rfl
  | getWc q f =>
    exfalso
    have h3 : ∀ c, ¬ Calls env tracked c (.getWc q f) := fun c hc => (h2 c).2 hc
    cases hc : coeffs env q.sector q.eft q.basis with
    | error e =>
      refine h1 e ?_
      unfold predict Eft.getWc
      rw [hc]; rfl
    | ok cs =>
      cases he : chooseEft q.eft q.nfOut with
      | error e =>
        refine h1 e ?_
        unfold predict Eft.getWc Eft.getWcxf
        rw [hc, ok_bind_eq, tracked_not_sm, if_neg (by simp), he]; rfl
      | ok eft =>
        exact h3 ⟨q.scale, eft, q.basis, mrSectors q.sector⟩ (.hereWc hc tracked_not_sm ⟨he, rfl, rfl, rfl⟩)
  | getWcxf q f =>
    exfalso
    have h3 : ∀ c, ¬ Calls env tracked c (.getWcxf q f) := fun c hc => (h2 c).2 hc
    cases he : chooseEft q.eft q.nfOut with
    | error e =>
      refine h1 e ?_
      unfold predict Eft.getWcxf
      rw [he]; rfl
    | ok eft =>
      exact h3 ⟨q.scale, eft, q.basis, mrSectors q.sector⟩ (.hereWcxf rfl ⟨he, rfl, rfl, rfl⟩)

theorem wcxf_agree (env : Env) {o₁ o₂ : WilsonCoefficients} {w₁ w₂ : WC} (h₁ : o₁.wc = some w₁) (h₂ : o₂.wc = some w₂)
    (q : Query) (ha : ∀ c, q.Leads c → env.matchRun w₁ c.scale c.eft c.basis c.sectors =
      env.matchRun w₂ c.scale c.eft c.basis c.sectors) :
    Eft.getWcxf env o₁ q.sector q.scale q.eft q.basis q.nfOut =
      Eft.getWcxf env o₂ q.sector q.scale q.eft q.basis q.nfOut := by
  unfold Eft.getWcxf
  rw [h₁, h₂]
  cases he : chooseEft q.eft q.nfOut with
  | error e => rfl
  | ok eft => exact ha ⟨q.scale, eft, q.basis, mrSectors q.sector⟩ ⟨he, rfl, rfl, rfl⟩

theorem wc_agree (env : Env) {o₁ o₂ : WilsonCoefficients} {w₁ w₂ : WC} (h₁ : o₁.wc = some w₁) (h₂ : o₂.wc = some w₂)
    (s₁ : isSM o₁ = false) (s₂ : isSM o₂ = false)
    (q : Query) (ha : ∀ c, q.Leads c → env.matchRun w₁ c.scale c.eft c.basis c.sectors =
      env.matchRun w₂ c.scale c.eft c.basis c.sectors) :
    Eft.getWc env o₁ q.sector q.scale q.eft q.basis q.nfOut =
      Eft.getWc env o₂ q.sector q.scale q.eft q.basis q.nfOut := by
  unfold Eft.getWc
  rw [s₁, s₂, wcxf_agree env h₁ h₂ q ha]

/-- **C157 (soundness for the tracked run).** For every prediction function, adaptive or not: an object with non-zero
values whose running agrees with that of the tracked object on the returned set gives the same prediction. -/
theorem C157_tracked (env : Env) (prog : WProg A) (t : Set MatchRunCall) (h : getDependentWcs env prog = .ok t)
    (o : WilsonCoefficients) (w w₀ : WC) (hw : o.wc = some w) (hs : isSM o = false) (h₀ : tracked.wc = some w₀)
    (ha : AgreeOn env w₀ w t) : predict env o prog = predict env tracked prog := by
  have h2 := (C157_exact env prog).2 _ h
  have ha' : ∀ c, Calls env tracked c prog → env.matchRun w₀ c.scale c.eft c.basis c.sectors =
      env.matchRun w c.scale c.eft c.basis c.sectors := fun c hc => ha c ((h2 c).2 hc)
  clear h h2 ha
  induction prog with
  | ret r => rfl
  | getWc q f ih =>
    have e1 : Eft.getWc env o q.sector q.scale q.eft q.basis q.nfOut =
        Eft.getWc env tracked q.sector q.scale q.eft q.basis q.nfOut := by
      cases hc : coeffs env q.sector q.eft q.basis with
      | error e => simp only [Eft.getWc, hc]; rfl
      | ok cs => exact wc_agree env hw h₀ hs tracked_not_sm q fun c hl => (ha' c (.hereWc hc tracked_not_sm hl)).symm
    unfold predict
    rw [e1]
    cases hd : Eft.getWc env tracked q.sector q.scale q.eft q.basis q.nfOut with
    | error e => rfl
    | ok d => exact ih d fun c hc => ha' c (.laterWc hd hc)
  | getWcxf q f ih =>
    have e1 : Eft.getWcxf env o q.sector q.scale q.eft q.basis q.nfOut =
        Eft.getWcxf env tracked q.sector q.scale q.eft q.basis q.nfOut :=
      wcxf_agree env hw h₀ q fun c hl => (ha' c (.hereWcxf h₀ hl)).symm
    unfold predict
    rw [e1]
    cases hd : Eft.getWcxf env tracked q.sector q.scale q.eft q.basis q.nfOut with
    | error e => rfl
    | ok d => exact ih d fun c hc => ha' c (.laterWcxf hd hc)

theorem leads_of_nonAdaptive (env : Env) {prog : WProg A} {qs : List Query} (hn : NonAdaptive prog qs)
    (hok : ∀ e, predict env tracked prog ≠ .error e) (q : Query) (hq : q ∈ qs) (c : MatchRunCall) (hl : q.Leads c) :
    Calls env tracked c prog := by
  induction hn with
  | ret r => simp at hq
  | @getWc q' f qs hf ih =>
    unfold predict at hok
    cases hd : Eft.getWc env tracked q'.sector q'.scale q'.eft q'.basis q'.nfOut with
    | error e => rw [hd] at hok; exact absurd rfl (hok e)
    | ok d =>
      rw [hd] at hok
      rcases List.mem_cons.1 hq with rfl | hq
      · cases hc : coeffs env q.sector q.eft q.basis with
        | error e => simp only [Eft.getWc, hc] at hd; cases hd
        | ok cs => exact .hereWc hc tracked_not_sm hl
      · exact .laterWc hd (ih d hok hq)
  | @getWcxf q' f qs hf ih =>
    unfold predict at hok
    cases hd : Eft.getWcxf env tracked q'.sector q'.scale q'.eft q'.basis q'.nfOut with
    | error e => rw [hd] at hok; exact absurd rfl (hok e)
    | ok d =>
      rw [hd] at hok
      rcases List.mem_cons.1 hq with rfl | hq
      · exact .hereWcxf rfl hl
      · exact .laterWcxf hd (ih d hok hq)

theorem predict_agree (env : Env) {prog : WProg A} {qs : List Query} (hn : NonAdaptive prog qs)
    {o₁ o₂ : WilsonCoefficients} {w₁ w₂ : WC} (h₁ : o₁.wc = some w₁) (h₂ : o₂.wc = some w₂)
    (s₁ : isSM o₁ = false) (s₂ : isSM o₂ = false)
    (ha : ∀ q ∈ qs, ∀ c, q.Leads c → env.matchRun w₁ c.scale c.eft c.basis c.sectors =
      env.matchRun w₂ c.scale c.eft c.basis c.sectors) :
    predict env o₁ prog = predict env o₂ prog := by
  induction hn with
  | ret r => rfl
  | @getWc q f qs hf ih =>
    unfold predict
    rw [wc_agree env h₁ h₂ s₁ s₂ q (ha q (by simp))]
    cases Eft.getWc env o₂ q.sector q.scale q.eft q.basis q.nfOut with
    | error e => rfl
    | ok d => exact ih d fun q' hq' => ha q' (by simp [hq'])
  | @getWcxf q f qs hf ih =>
    unfold predict
    rw [wcxf_agree env h₁ h₂ q (ha q (by simp))]
    cases Eft.getWcxf env o₂ q.sector q.scale q.eft q.basis q.nfOut with
    | error e => rfl
    | ok d => exact ih d fun q' hq' => ha q' (by simp [hq'])

/-- **C157 (soundness).** If the coefficients a prediction function asks for do not depend on the values it gets, the
returned set determines the prediction: two objects with non-zero values whose running agrees on the set give the same
prediction. -/
theorem C157_sound_partial (env : Env) (prog : WProg A) (qs : List Query) (hn : NonAdaptive prog qs)
    (t : Set MatchRunCall) (h : getDependentWcs env prog = .ok t) (o₁ o₂ : WilsonCoefficients) (w₁ w₂ : WC)
    (h₁ : o₁.wc = some w₁) (h₂ : o₂.wc = some w₂) (s₁ : isSM o₁ = false) (s₂ : isSM o₂ = false)
    (ha : AgreeOn env w₁ w₂ t) : predict env o₁ prog = predict env o₂ prog := by
  have h2 := (C157_exact env prog).2 _ h
  have hok : ∀ e, predict env tracked prog ≠ .error e := by
    intro e he
    rw [((C157_exact env prog).1 e).2 he] at h
    cases h
  exact predict_agree env hn h₁ h₂ s₁ s₂ fun q hq c hl => ha c ((h2 c).2 (leads_of_nonAdaptive env hn hok q hq c hl))

/-! ## Witnesses -/

/-- An environment with one basis with two sectors, each with one coefficient; running changes nothing.
(Specification.) -/
noncomputable def wEnv : Env where
  bases := [(("WET", "flavio"), [("a", ["x"]), ("b", ["y"])])]
  matchRun := fun w scale eft basis sec => match sec with
    | .one "a" => .ok ⟨eft, basis, scale, w.values.filter (·.1 = "x")⟩
    | .one "b" => .ok ⟨eft, basis, scale, w.values.filter (·.1 = "y")⟩
    | _ => .ok ⟨eft, basis, scale, w.values⟩

/-- A prediction that looks at sector `b` only if the coefficient of sector `a` is non-zero. (Specification.) -/
noncomputable def adaptive : WProg ℂ :=
  .getWcxf ⟨"a", 5, "WET", "flavio", none⟩ fun w =>
    if w.values = [] then .ret (.ok 0)
    else .getWcxf ⟨"b", 5, "WET", "flavio", none⟩ fun w => .ret (.ok ((Dict.get? w.dict "y").getD 0))

/-- An object with the given values of the two coefficients. (Specification.) -/
noncomputable def obj (x y : ℝ) : WilsonCoefficients := ⟨some ⟨"WET", "flavio", 5, [("x", .num x), ("y", .num y)]⟩⟩

/-- **C157 (why only partial).** For an adaptive prediction function the returned set can miss sectors on which the
prediction depends: here it contains only sector `a`, and two objects that agree on it give different predictions. -/
theorem C157_adaptive_misses : ∃ t, getDependentWcs wEnv adaptive = .ok t ∧
    (∀ c ∈ t, c.sectors = .one "a") ∧ ∃ w₁ w₂, (obj 1 1).wc = some w₁ ∧ (obj 1 2).wc = some w₂ ∧
    AgreeOn wEnv w₁ w₂ t ∧ predict wEnv (obj 1 1) adaptive = .ok 1 ∧ predict wEnv (obj 1 2) adaptive = .ok 2 := by
  have ta : translate "a" = "a" := by decide +kernel
  have tb : translate "b" = "b" := by decide +kernel
  have ma : mrSectors "a" = .one "a" := by simp [mrSectors, ta]
  have mb : mrSectors "b" = .one "b" := by simp [mrSectors, tb]
  refine ⟨{⟨5, "WET", "flavio", .one "a"⟩}, ?_, ?_, _, _, rfl, rfl, ?_, ?_, ?_⟩
  · simp [getDependentWcs, awarePredict, adaptive, awareGetWcxf, chooseEft, tracked, setInitial, awareMatchRun, wEnv, ma]
  · intro c hc
    simp only [Set.mem_singleton_iff] at hc
    rw [hc]
  · intro c hc
    simp only [Set.mem_singleton_iff] at hc
    rw [hc]
    simp [wEnv]
  · simp [predict, adaptive, Eft.getWcxf, chooseEft, obj, wEnv, ma, mb, ok_bind_eq, WC.dict, Dict.get?, WCVal.toC]
  · simp [predict, adaptive, Eft.getWcxf, chooseEft, obj, wEnv, ma, mb, ok_bind_eq, WC.dict, Dict.get?, WCVal.toC]

/-- Non-vacuity: a non-adaptive prediction with a non-empty result. -/
theorem C157_nonvacuous : ∃ (prog : WProg ℂ) (qs : List Query) (t : Set MatchRunCall), NonAdaptive prog qs ∧
    getDependentWcs wEnv prog = .ok t ∧ t.Nonempty ∧ isSM (obj 1 2) = false := by
  have ta : translate "a" = "a" := by decide +kernel
  have ma : mrSectors "a" = .one "a" := by simp [mrSectors, ta]
  refine ⟨.getWcxf ⟨"a", 5, "WET", "flavio", none⟩ fun w => .ret (.ok ((Dict.get? w.dict "x").getD 0)), _,
    {⟨5, "WET", "flavio", .one "a"⟩}, .getWcxf fun w => .ret _, ?_, ⟨_, rfl⟩, ?_⟩
  · simp [getDependentWcs, awarePredict, awareGetWcxf, chooseEft, tracked, setInitial, awareMatchRun, wEnv, ma]
  · simp [isSM, obj, WCVal.truthy]

end Verif.DependentWcs
