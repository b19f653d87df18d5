import Verif.Functions.DependentWcs
/-!
# Without new physics, predictions are those of the Standard Model
-/
set_option linter.unusedVariables false
set_option linter.unusedSimpArgs false
set_option linter.unusedSectionVars false
namespace Verif.DependentWcs
open Verif.Py
open Verif.Eft

variable {A : Type}

/-- `sm_prediction`: the same prediction function is called with the object `_wc_sm`, which has no values
(/repo/flavio/functions.py:27-40, /repo/flavio/physics/eft.py:244-246). -/
noncomputable def smPrediction (env : Env) (prog : WProg A) : Except PyErr A := predict env init prog

/-- Specification: an object without values, or whose values are all the number zero. -/
def NoNewPhysics (o : WilsonCoefficients) : Prop := o.wc = none ∨ ∃ w, o.wc = some w ∧ ∀ e ∈ w.values, e.2 = .num 0

/-- Specification: the prediction function uses `get_wc` only. -/
inductive OnlyGetWc : WProg A → Prop
  | ret (r) : OnlyGetWc (.ret r)
  | getWc {q f} (h : ∀ d, OnlyGetWc (f d)) : OnlyGetWc (.getWc q f)

/-- Specification: the prediction function takes coefficients that are missing in the result of `get_wcxf` as zero,
and uses nothing else of the result. -/
inductive MissingIsZero : WProg A → Prop
  | ret (r) : MissingIsZero (.ret r)
  | getWc {q f} (h : ∀ d, MissingIsZero (f d)) : MissingIsZero (.getWc q f)
  | getWcxf {q f} (h : ∀ w, MissingIsZero (f w))
      (hf : ∀ w w' : WC, (∀ k, (Dict.get? w.dict k).getD 0 = (Dict.get? w'.dict k).getD 0) → f w = f w') :
      MissingIsZero (.getWcxf q f)

theorem isSM_of {o : WilsonCoefficients} (h : NoNewPhysics o) : isSM o = true := by
  unfold isSM
  rcases h with h | ⟨w, h, hw⟩
  · rw [h]
  · rw [h]
    simp only [Bool.not_eq_true', List.any_eq_false]
    intro e he
    rw [hw e he]
    simp [WCVal.truthy]

theorem getWc_sm (env : Env) {o : WilsonCoefficients} (h : NoNewPhysics o) (q : Query) :
    Eft.getWc env o q.sector q.scale q.eft q.basis q.nfOut = Eft.getWc env init q.sector q.scale q.eft q.basis q.nfOut := by
  unfold Eft.getWc
  rw [isSM_of h, isSM_of (o := init) (Or.inl rfl)]
  rfl

/-- **C160.** For a prediction function that uses `get_wc` only, the NP prediction with vanishing coefficients is the SM
prediction, including exceptions, whatever the running package does. -/
theorem C160_get_wc (env : Env) (o : WilsonCoefficients) (h : NoNewPhysics o) (prog : WProg A)
    (hp : OnlyGetWc prog) : predict env o prog = smPrediction env prog := by
  unfold smPrediction
  induction hp with
  | ret r => rfl
  | @getWc q f hf ih =>
    unfold predict
    rw [getWc_sm env h q]
    cases Eft.getWc env init q.sector q.scale q.eft q.basis q.nfOut with
    | error e => rfl
    | ok d => exact ih d

/-- Specification: running and matching zero values works and gives zero values. -/
def RunsZeroToZero (env : Env) (w : WC) : Prop :=
  ∀ scale eft basis sec, ∃ r, env.matchRun w scale eft basis sec = .ok r ∧ ∀ e ∈ r.values, e.2.toC = 0

theorem dict_zero {r : WC} (h : ∀ e ∈ r.values, e.2.toC = 0) (k : String) : (Dict.get? r.dict k).getD 0 = 0 := by
  cases hk : Dict.get? r.dict k with
  | none => rfl
  | some v =>
    have := Dict.mem_of_get? hk
    unfold WC.dict at this
    obtain ⟨e, he, heq⟩ := List.mem_map.1 this
    injection heq with h1 h2
    rw [Option.getD_some, ← h2, h e he]

/-- **C160.** For a prediction function that may also use `get_wcxf` but takes missing coefficients as zero: the same,
provided the running package maps zero to zero. -/
theorem C160_get_wcxf_partial (env : Env) (o : WilsonCoefficients) (h : NoNewPhysics o) (prog : WProg A)
    (hp : MissingIsZero prog) (hr : ∀ w, o.wc = some w → RunsZeroToZero env w) :
    predict env o prog = smPrediction env prog := by
  unfold smPrediction
  induction hp with
  | ret r => rfl
  | @getWc q f hf ih =>
    unfold predict
    rw [getWc_sm env h q]
    cases Eft.getWc env init q.sector q.scale q.eft q.basis q.nfOut with
    | error e => rfl
    | ok d => exact ih d
  | @getWcxf q f hf hz ih =>
    unfold predict
    cases hc : chooseEft q.eft q.nfOut with
    | error e =>
      unfold Eft.getWcxf
      rw [hc]; rfl
    | ok eft =>
      have h0 : Eft.getWcxf env init q.sector q.scale q.eft q.basis q.nfOut = .ok ⟨eft, q.basis, q.scale, []⟩ := by
        unfold Eft.getWcxf
        rw [hc]; rfl
      rw [h0]
      cases hw : o.wc with
      | none =>
        have h1 : Eft.getWcxf env o q.sector q.scale q.eft q.basis q.nfOut = .ok ⟨eft, q.basis, q.scale, []⟩ := by
          unfold Eft.getWcxf
          rw [hc, hw]; rfl
        rw [h1]
        exact ih _
      | some w =>
        obtain ⟨r, h1, h2⟩ := hr w hw q.scale eft q.basis (mrSectors q.sector)
        have h3 : Eft.getWcxf env o q.sector q.scale q.eft q.basis q.nfOut = .ok r := by
          unfold Eft.getWcxf
          rw [hc, hw]; exact h1
        rw [h3]
        show predict env o (f r) = predict env init (f ⟨eft, q.basis, q.scale, []⟩)
        rw [hz r ⟨eft, q.basis, q.scale, []⟩ (fun k => by rw [dict_zero h2]; rfl)]
        exact ih _

/-- A prediction that reads a coefficient from the result of `get_wcxf` without a default value. (Specification.) -/
noncomputable def direct : WProg ℂ :=
  .getWcxf ⟨"all", 5, "WET", "flavio", none⟩ fun w => .ret (Dict.getItem w.dict "x")

/-- **C160 (why only partial).** A prediction function that reads a coefficient directly from the result of `get_wcxf`
raises `KeyError` for the SM object, even if it works with vanishing coefficients. -/
theorem C160_direct_access_fails :
    smPrediction wEnv direct = .error .keyError ∧ predict wEnv (obj 0 0) direct = .ok 0 := by
  have ma : mrSectors "all" = .all := by simp [mrSectors]
  constructor
  · simp [smPrediction, direct, predict, Eft.getWcxf, chooseEft, init, WC.dict, Dict.getItem, Dict.get?, ok_bind_eq]
  · simp [direct, predict, Eft.getWcxf, chooseEft, obj, wEnv, ma, WC.dict, Dict.getItem, Dict.get?, ok_bind_eq, WCVal.toC]

/-- Non-vacuity: an object with vanishing values and a prediction function of each kind. -/
theorem C160_nonvacuous : NoNewPhysics (obj 0 0) ∧ (∀ w, (obj 0 0).wc = some w → RunsZeroToZero wEnv w) ∧
    (∃ prog : WProg ℂ, OnlyGetWc prog ∧ ∃ q f, prog = .getWc q f) ∧
    (∃ prog : WProg ℂ, MissingIsZero prog ∧ ∃ q f, prog = .getWcxf q f) := by
  refine ⟨Or.inr ⟨_, rfl, by simp⟩, ?_, ⟨.getWc ⟨"a", 5, "WET", "flavio", none⟩ fun d => .ret (.ok ((Dict.get? d "x").getD 0)),
    .getWc fun d => .ret _, _, _, rfl⟩, ⟨.getWcxf ⟨"a", 5, "WET", "flavio", none⟩ fun w =>
      .ret (.ok ((Dict.get? w.dict "x").getD 0)), .getWcxf (fun w => .ret _) (fun w w' h => by simp only [h]), _, _, rfl⟩⟩
  intro w hw scale eft basis sec
  injection hw with hw
  subst hw
  unfold wEnv
  dsimp only
  split
  · exact ⟨_, rfl, by simp [WCVal.toC]⟩
  · exact ⟨_, rfl, by simp [WCVal.toC]⟩
  · exact ⟨_, rfl, by simp [WCVal.toC]⟩

end Verif.DependentWcs
