import Verif.Physics.Eft
import Verif.Physics.Mixing.Box
/-!
# `Λ → p ℓ ν` (`flavio/physics/kdecays/lambdaplnu.py`, C113)

The Wilson coefficients come from the model of `get_wc` (`Physics/Eft.lean`); the SM value `get_CVLSM` of the vector coefficient is an input.
-/
set_option linter.unusedVariables false
set_option linter.unusedSimpArgs false
namespace Verif.Lambdap
open Verif.Py Verif.Running Verif.Eft

/-- The dictionary returned by `get_wceff_fccc_std`.  /repo/flavio/physics/bdecays/wilsoncoefficients.py:244-250. -/
structure Std where
  VL : ℂ
  VR : ℂ
  SR : ℂ
  SL : ℂ
  T : ℂ

/-- `get_wceff_fccc_std` with `eft = 'WET'`, basis `flavio` and `nf = 3`; `cvlsm` is the result of `get_CVLSM`.
/repo/flavio/physics/bdecays/wilsoncoefficients.py:234-250. -/
noncomputable def wceffStd (env : Env) (o : WilsonCoefficients) (scale cvlsm : ℝ) (qiqj lep nu : String) : Except PyErr Std := do
  let q := qiqj ++ lep ++ "nu" ++ nu
  let wc ← getWc env o q scale "WET" "flavio" (some 3)
  let csm : ℂ := if lep = nu then (cvlsm : ℂ) else 0
  let vl ← Dict.getItem wc ("CVL_" ++ q)
  let vr ← Dict.getItem wc ("CVR_" ++ q)
  let sr ← Dict.getItem wc ("CSR_" ++ q)
  let sl ← Dict.getItem wc ("CSL_" ++ q)
  let t ← Dict.getItem wc ("CT_" ++ q)
  pure ⟨csm + vl, vr, sr, sl, t⟩

/-- `g1_f1`; `f10`, `g10` are the form factors at zero.  /repo/flavio/physics/kdecays/lambdaplnu.py:7-13. -/
noncomputable def g1f1 (env : Env) (o : WilsonCoefficients) (scale cvlsm f10 g10 : ℝ) (lep nu : String) : Except PyErr ℝ := do
  let wc ← wceffStd env o scale cvlsm "su" lep nu
  let f1 := f10 * (wc.VL + wc.VR).re
  let g1 := g10 * (wc.VL - wc.VR).re
  pyDiv g1 f1

/-- The registered observables and the lepton of their prediction.  /repo/flavio/physics/kdecays/lambdaplnu.py:16-33. -/
def registry : List (String × String) := [("g1/f1(Lambda->penu)", "e"), ("g1/f1(Lambda->pmunu)", "mu"), ("g1/f1(Lambda->plnu)", "l")]

/-- The prediction, `g1_f1_fct`.  /repo/flavio/physics/kdecays/lambdaplnu.py:16-19. -/
noncomputable def predict (env : Env) (o : WilsonCoefficients) (scale cvlsm f10 g10 : ℝ) (lep : String) : Except PyErr ℝ :=
  g1f1 env o scale cvlsm f10 g10 lep lep

/-! ## The claims -/

/-- **C113 (Standard Model).** Whenever the prediction for a charged lepton `e` or `mu` can be made without new physics, it is exactly the ratio of the
form factors at zero, whatever the short-distance correction. -/
theorem C113_standard_model (env : Env) (o : WilsonCoefficients) (scale cvlsm f10 g10 : ℝ) (lep : String) (cs : List String)
    (hsm : isSM o = true) (hc : coeffs env ("su" ++ lep ++ "nu" ++ lep) "WET" "flavio" = .ok cs)
    (hk : ∀ C ∈ ["CVL_", "CVR_", "CSR_", "CSL_", "CT_"], C ++ ("su" ++ lep ++ "nu" ++ lep) ∈ cs) (hn : cs.Nodup) (hv : cvlsm ≠ 0) (hf : f10 ≠ 0) :
    predict env o scale cvlsm f10 g10 lep = .ok (g10 / f10) := by
  have hz : ∀ k ∈ cs, Dict.getItem (zeros cs) k = .ok 0 := by
    intro k hk
    have hwf : ((cs.map fun k => (k, (0 : ℂ))).map Prod.fst).Nodup := by
      rw [List.map_map]
      have : (Prod.fst ∘ fun k : String => (k, (0 : ℂ))) = id := rfl
      rw [this, List.map_id]; exact hn
    have : Dict.get? (zeros cs) k = some 0 := by
      unfold zeros
      rw [Dict.ofPairs_of_nodup _ hwf]
      exact Dict.get?_of_mem hwf (List.mem_map.2 ⟨k, hk, rfl⟩)
    unfold Dict.getItem; rw [this]
  unfold predict g1f1 wceffStd getWc
  simp only [hc, hsm, Bind.bind, Except.bind, pure, Except.pure, if_true, hz _ (hk "CVL_" (by simp)), hz _ (hk "CVR_" (by simp)), hz _ (hk "CSR_" (by simp)),
    hz _ (hk "CSL_" (by simp)), hz _ (hk "CT_" (by simp)), add_zero, sub_zero, Complex.ofReal_re]
  rw [Mixing.pyDiv_ne (mul_ne_zero hf hv)]
  congr 1
  field_simp

/-- **C113 (right-handed currents).** With the coefficients returned by `get_wc`, the ratio is the SM one times `Re(V_L − V_R)/Re(V_L + V_R)`; scalar and
tensor coefficients do not matter; a vanishing vector form factor is a `ZeroDivisionError`. -/
theorem C113_right_handed (env : Env) (o : WilsonCoefficients) (scale cvlsm f10 g10 : ℝ) (lep nu : String) (w : Std)
    (hw : wceffStd env o scale cvlsm "su" lep nu = .ok w) :
    (f10 ≠ 0 → (w.VL + w.VR).re ≠ 0 → g1f1 env o scale cvlsm f10 g10 lep nu = .ok (g10 / f10 * ((w.VL - w.VR).re / (w.VL + w.VR).re))) ∧
    (f10 = 0 ∨ (w.VL + w.VR).re = 0 → g1f1 env o scale cvlsm f10 g10 lep nu = .error .zeroDivisionError) := by
  unfold g1f1
  rw [hw]
  refine ⟨fun h1 h2 => ?_, fun h => ?_⟩
  · show pyDiv _ _ = _
    rw [Mixing.pyDiv_ne (mul_ne_zero h1 h2)]
    congr 1
    field_simp
  · show pyDiv _ _ = _
    have : f10 * (w.VL + w.VR).re = 0 := by rcases h with h | h <;> rw [h] <;> simp
    rw [this, Mixing.pyDiv_zero]

/-- **C113 (finding: `g1/f1(Lambda->plnu)` can never be computed).** The third registered observable asks for the coefficients of the sector
`sulnul`. It is not a legacy name, so unless the basis has a sector of that name (no WCxf basis does) the prediction raises `KeyError`,
for all parameters and all Wilson coefficients, also in the Standard Model. -/
theorem C113_lepton_l (env : Env) (o : WilsonCoefficients) (scale cvlsm f10 g10 : ℝ) (secs : Dict String (List String))
    (hb : Dict.get? env.bases ("WET", "flavio") = some secs) (hs : "sulnul" ∉ Dict.keys secs) :
    ("g1/f1(Lambda->plnu)", "l") ∈ registry ∧ predict env o scale cvlsm f10 g10 "l" = .error .keyError := by
  refine ⟨by decide, ?_⟩
  have h1 : ("su" ++ "l" ++ "nu" ++ "l" : String) = "sulnul" := by decide
  have h2 : translate "sulnul" = "sulnul" := by decide
  have h3 : coeffs env "sulnul" "WET" "flavio" = .error .keyError := by
    unfold coeffs
    have e1 : Dict.getItem env.bases ("WET", "flavio") = .ok secs := by unfold Dict.getItem; rw [hb]
    rw [e1]
    simp only [Bind.bind, Except.bind]
    rw [if_neg (by decide), h2]
    unfold Dict.getItem
    rw [(Dict.get?_eq_none_iff secs "sulnul").2 hs]
  unfold predict g1f1 wceffStd getWc
  simp only [h1, h3, Bind.bind, Except.bind]

/-- **C113 (electron and muon).** The sectors of the other two observables exist in every basis that has the charged-current sectors `usenu`
and `usmunu`. -/
theorem C113_sectors : translate ("su" ++ "e" ++ "nu" ++ "e") = "usenu" ∧ translate ("su" ++ "mu" ++ "nu" ++ "mu") = "usmunu" := by
  constructor <;> decide

/-! ## A concrete case -/

/-- An environment with one basis that has the electron sector. (Example.) (Specification.) -/
def exEnv : Env := { bases := [(("WET", "flavio"), [("usenu", ["CVL_suenue", "CVR_suenue", "CSR_suenue", "CSL_suenue", "CT_suenue"])])],
                     matchRun := fun w _ _ _ _ => .ok w }

example : predict exEnv ⟨none⟩ 2 1 3 5 "e" = .ok (5 / 3) :=
  C113_standard_model exEnv ⟨none⟩ 2 1 3 5 "e" ["CVL_suenue", "CVR_suenue", "CSR_suenue", "CSL_suenue", "CT_suenue"] rfl
    (by
      have h : translate ("su" ++ "e" ++ "nu" ++ "e") = "usenu" := by decide
      unfold coeffs; rw [h]
      rfl) (by decide) (by decide) (by norm_num) (by norm_num)

example : predict exEnv ⟨none⟩ 2 1 3 5 "l" = .error .keyError :=
  (C113_lepton_l exEnv ⟨none⟩ 2 1 3 5 [("usenu", ["CVL_suenue", "CVR_suenue", "CSR_suenue", "CSL_suenue", "CT_suenue"])] rfl (by decide)).2

end Verif.Lambdap
