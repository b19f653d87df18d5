import Mathlib.Data.Complex.Basic
import Verif.Py.Dict
import Verif.Py.ExceptLemmas
/-!
# Wilson coefficient access (`flavio/physics/eft.py`)

`WilsonCoefficients` with its two external packages as parameters: the registry `wcxf.Basis` (sectors and
their coefficients, per EFT and basis) and `Wilson.match_run` (RG evolution and matching).
-/
set_option linter.unusedVariables false
namespace Verif.Eft
open Verif.Py

/-- `sectors_flavio2wcxf`, complete.  /repo/flavio/physics/eft.py:8-114. -/
def sectorsTable : Dict String String := [
  ("bcenue", "cbenu"), ("bcenumu", "cbenu"), ("bcenutau", "cbenu"), ("bcmunue", "cbmunu"),
  ("bcmunumu", "cbmunu"), ("bcmunutau", "cbmunu"), ("bctaunue", "cbtaunu"),
  ("bctaunumu", "cbtaunu"), ("bctaunutau", "cbtaunu"), ("bdbd", "dbdb"), ("bdee", "db"),
  ("bdemu", "dbmue"), ("bdetau", "dbtaue"), ("bdmue", "dbemu"), ("bdmumu", "db"),
  ("bdmutau", "dbtaumu"), ("bdnuenue", "dbnunu"), ("bdnuenumu", "dbnunu"),
  ("bdnuenutau", "dbnunu"), ("bdnumunue", "dbnunu"), ("bdnumunumu", "dbnunu"),
  ("bdnumunutau", "dbnunu"), ("bdnutaunue", "dbnunu"), ("bdnutaunumu", "dbnunu"),
  ("bdnutaunutau", "dbnunu"), ("bdtaue", "dbetau"), ("bdtaumu", "dbmutau"), ("bdtautau", "db"),
  ("bsbs", "sbsb"), ("bsee", "sb"), ("bsemu", "sbmue"), ("bsetau", "sbtaue"), ("bsmue", "sbemu"),
  ("bsmumu", "sb"), ("bsmutau", "sbtaumu"), ("bsnuenue", "sbnunu"), ("bsnuenumu", "sbnunu"),
  ("bsnuenutau", "sbnunu"), ("bsnumunue", "sbnunu"), ("bsnumunumu", "sbnunu"),
  ("bsnumunutau", "sbnunu"), ("bsnutaunue", "sbnunu"), ("bsnutaunumu", "sbnunu"),
  ("bsnutaunutau", "sbnunu"), ("bstaue", "sbetau"), ("bstaumu", "sbmutau"), ("bstautau", "sb"),
  ("buenue", "ubenu"), ("buenumu", "ubenu"), ("buenutau", "ubenu"), ("bumunue", "ubmunu"),
  ("bumunumu", "ubmunu"), ("bumunutau", "ubmunu"), ("butaunue", "ubtaunu"),
  ("butaunumu", "ubtaunu"), ("butaunutau", "ubtaunu"), ("dcenue", "cdenu"), ("dcenumu", "cdenu"),
  ("dcenutau", "cdenu"), ("dcmunue", "cdmunu"), ("dcmunumu", "cdmunu"), ("dcmunutau", "cdmunu"),
  ("dctaunue", "cdtaunu"), ("dctaunumu", "cdtaunu"), ("dctaunutau", "cdtaunu"),
  ("duenue", "udenu"), ("duenumu", "udenu"), ("duenutau", "udenu"), ("dumunue", "udmunu"),
  ("dumunumu", "udmunu"), ("dumunutau", "udmunu"), ("dutaunue", "udtaunu"),
  ("dutaunumu", "udtaunu"), ("dutaunutau", "udtaunu"), ("scenue", "csenu"), ("scenumu", "csenu"),
  ("scenutau", "csenu"), ("scmunue", "csmunu"), ("scmunumu", "csmunu"), ("scmunutau", "csmunu"),
  ("sctaunue", "cstaunu"), ("sctaunumu", "cstaunu"), ("sctaunutau", "cstaunu"),
  ("sdnuenue", "sdnunu"), ("sdnuenumu", "sdnunu"), ("sdnuenutau", "sdnunu"),
  ("sdnumunue", "sdnunu"), ("sdnumunumu", "sdnunu"), ("sdnumunutau", "sdnunu"),
  ("sdnutaunue", "sdnunu"), ("sdnutaunumu", "sdnunu"), ("sdnutaunutau", "sdnunu"), ("sdee", "sd"),
  ("sdmumu", "sd"), ("sdtautau", "sd"), ("sdsd", "sdsd"), ("ucuc", "cucu"), ("suenue", "usenu"),
  ("suenumu", "usenu"), ("suenutau", "usenu"), ("sumunue", "usmunu"), ("sumunumu", "usmunu"),
  ("sumunutau", "usmunu"), ("sutaunue", "ustaunu"), ("sutaunumu", "ustaunu"),
  ("sutaunutau", "ustaunu")]

/-- `sectors_flavio2wcxf.get(sector, sector)`.  /repo/flavio/physics/eft.py:208, 233. -/
def translate (s : String) : String := (Dict.get? sectorsTable s).getD s

/-- A value of a `wcxf.WC` instance: a plain number, or `{'Re': .., 'Im': ..}`.
(Used for `setInitial`, /repo/flavio/physics/eft.py:136-145.) -/
inductive WCVal where
  | num (x : ℝ)
  | reIm (re im : ℝ)

/-- Truth value in Python: a number is false iff it is zero, a non-empty dictionary is true.
(Used for `isSM`, /repo/flavio/physics/eft.py:236.) -/
noncomputable def WCVal.truthy : WCVal → Bool
  | .num x => decide (x ≠ 0)
  | .reIm _ _ => true

/-- The number it stands for (`wcxf.WC.dict`). (Used for `WC.dict`, /repo/flavio/physics/eft.py:214-241.) -/
def WCVal.toC : WCVal → ℂ
  | .num x => x
  | .reIm re im => ⟨re, im⟩

/-- A `wcxf.WC` instance. (Used for `WilsonCoefficients`, /repo/flavio/physics/eft.py:132-134.) -/
structure WC where
  eft : String
  basis : String
  scale : ℝ
  values : Dict String WCVal

/-- `wc.dict`. (Used for `getWc`, /repo/flavio/physics/eft.py:214-241.) -/
def WC.dict (w : WC) : Dict String ℂ := w.values.map fun e => (e.1, e.2.toC)

/-- The `sectors` argument of `match_run`: all, or a one-element tuple.
(Used for `mrSectors`, /repo/flavio/physics/eft.py:204-209.) -/
inductive MrSectors where
  | all
  | one (s : String)
  deriving DecidableEq

/-- The external packages: `wcxf.Basis[eft, basis].sectors` (sector → coefficients; the coefficient
lists of `all_wcs` are the concatenation over the sectors) and `Wilson.match_run`.
(Used for `getWcxf`, /repo/flavio/physics/eft.py:181-212.) -/
structure Env where
  bases : Dict (String × String) (Dict String (List String))
  matchRun : WC → (scale : ℝ) → (eft basis : String) → MrSectors → Except PyErr WC

/-- A `WilsonCoefficients` instance.  /repo/flavio/physics/eft.py:132-134. -/
structure WilsonCoefficients where
  wc : Option WC

/-- `__init__`.  /repo/flavio/physics/eft.py:132-134. -/
def init : WilsonCoefficients := ⟨none⟩

/-- `set_initial` (the conversion and validation of values by the `wcxf` package is not modelled).
/repo/flavio/physics/eft.py:136-145. -/
def setInitial (_ : WilsonCoefficients) (values : Dict String WCVal) (scale : ℝ) (eft basis : String) :
    WilsonCoefficients := ⟨some ⟨eft, basis, scale, values⟩⟩

/-- `set_initial_wcxf` (again without the conversion of values).  /repo/flavio/physics/eft.py:147-153. -/
def setInitialWcxf (_ : WilsonCoefficients) (w : WC) : WilsonCoefficients :=
  ⟨some ⟨w.eft, w.basis, w.scale, w.values⟩⟩

/-- `get_initial_wcxf`.  /repo/flavio/physics/eft.py:155-161. -/
def getInitialWcxf (o : WilsonCoefficients) : Except PyErr WC :=
  match o.wc with
  | none => .error .valueError
  | some w => .ok w

/-- The EFT chosen by `get_wcxf` from `eft` and `nf_out`.  /repo/flavio/physics/eft.py:195-203. -/
def chooseEft (eft : String) : Option Int → Except PyErr String
  | none => .ok eft
  | some 5 => .ok "WET"
  | some 4 => .ok "WET-4"
  | some 3 => .ok "WET-3"
  | some _ => .error .valueError

/-- The sectors passed to `match_run`.  /repo/flavio/physics/eft.py:204-209. -/
def mrSectors (sector : String) : MrSectors :=
  if sector = "all" then .all else .one (translate sector)

/-- `get_wcxf`.  /repo/flavio/physics/eft.py:181-212. -/
def getWcxf (env : Env) (o : WilsonCoefficients) (sector : String) (scale : ℝ) (eft basis : String)
    (nfOut : Option Int) : Except PyErr WC :=
  chooseEft eft nfOut >>= fun eft =>
    match o.wc with
    | none => .ok ⟨eft, basis, scale, []⟩
    | some w => env.matchRun w scale eft basis (mrSectors sector)

/-- The coefficients of a sector.  /repo/flavio/physics/eft.py:228-234. -/
def coeffs (env : Env) (sector eft basis : String) : Except PyErr (List String) :=
  Dict.getItem env.bases (eft, basis) >>= fun secs =>
    if sector = "all" then .ok (secs.flatMap Prod.snd)
    else Dict.getItem secs (translate sector)

/-- `dict.fromkeys(coeffs, 0)`.  /repo/flavio/physics/eft.py:235. -/
def zeros (l : List String) : Dict String ℂ := Dict.ofPairs (l.map fun k => (k, 0))

/-- `not self.wc or not any(self.wc.values.values())`.  /repo/flavio/physics/eft.py:236. -/
noncomputable def isSM (o : WilsonCoefficients) : Bool :=
  match o.wc with
  | none => true
  | some w => !(w.values.any fun e => e.2.truthy)

/-- `d.update(e)`. (Used for `getWc`, /repo/flavio/physics/eft.py:214-241.) -/
def update (d e : Dict String ℂ) : Dict String ℂ := e.foldl (fun d p => Dict.set d p.1 p.2) d

/-- `get_wc`.  /repo/flavio/physics/eft.py:214-241. -/
noncomputable def getWc (env : Env) (o : WilsonCoefficients) (sector : String) (scale : ℝ)
    (eft basis : String) (nfOut : Option Int) : Except PyErr (Dict String ℂ) :=
  coeffs env sector eft basis >>= fun cs =>
    if isSM o then .ok (zeros cs)
    else getWcxf env o sector scale eft basis nfOut >>= fun w => .ok (update (zeros cs) w.dict)

/-! ## Theorems -/

theorem get?_update (d e : Dict String ℂ) (he : Dict.WF e) (k : String) :
    Dict.get? (update d e) k = (Dict.get? e k).orElse fun _ => Dict.get? d k := by
  unfold update
  induction e generalizing d with
  | nil => simp
  | cons p e ih =>
    obtain ⟨a, b⟩ := p
    simp only [Dict.WF, Dict.keys_cons, List.nodup_cons] at he
    rw [List.foldl_cons, ih _ he.2, Dict.get?_set, Dict.get?_cons]
    by_cases h : a = k
    · subst h
      have : Dict.get? e a = none := (Dict.get?_eq_none_iff _ _).2 he.1
      simp [this]
    · simp [h]

theorem get?_zeros (l : List String) (k : String) :
    Dict.get? (zeros l) k = if k ∈ l then some 0 else none := by
  unfold zeros Dict.ofPairs
  have : ∀ (l : List String) (d : Dict String ℂ),
      Dict.get? ((l.map fun k => (k, (0 : ℂ))).foldl (fun d e => Dict.set d e.1 e.2) d) k =
        if k ∈ l then some 0 else Dict.get? d k := by
    intro l
    induction l with
    | nil => simp
    | cons a l ih =>
      intro d
      rw [List.map_cons, List.foldl_cons, ih, Dict.get?_set]
      by_cases h : k ∈ l
      · simp [h]
      · by_cases h' : a = k
        · simp [h']
        · simp [h, h', Ne.symm h']
  rw [this]
  simp

/-- Every entry of the translation table maps to a name that is not itself a legacy name for something
else, and that is not `all`. -/
theorem table_ok : ∀ e ∈ sectorsTable, translate e.2 = e.2 ∧ e.2 ≠ "all" ∧ e.1 ≠ "all" := by
  decide +kernel

theorem translate_eq (s : String) : translate s = s ∨ ∃ e ∈ sectorsTable, e.1 = s ∧ translate s = e.2 := by
  unfold translate
  cases h : Dict.get? sectorsTable s with
  | none => exact Or.inl rfl
  | some v => exact Or.inr ⟨_, Dict.mem_of_get? h, rfl, rfl⟩

/-- **C64 (legacy names).** For every state, sector, scale, EFT, basis and `nf_out`, and whatever the
external packages do: a sector name and its translation give the same result, for `get_wc` and
`get_wcxf`. -/
theorem C64_legacy_names (env : Env) (o : WilsonCoefficients) (sector : String) (scale : ℝ)
    (eft basis : String) (nfOut : Option Int) :
    getWc env o (translate sector) scale eft basis nfOut = getWc env o sector scale eft basis nfOut ∧
    getWcxf env o (translate sector) scale eft basis nfOut =
      getWcxf env o sector scale eft basis nfOut := by
  have h : translate (translate sector) = translate sector ∧
      (translate sector = "all" ↔ sector = "all") := by
    rcases translate_eq sector with h | ⟨e, he, rfl, h⟩
    · rw [h]; exact ⟨h, Iff.rfl⟩
    · obtain ⟨h1, h2, h3⟩ := table_ok e he
      rw [h]
      exact ⟨h1, ⟨fun h => absurd h h2, fun h => absurd h h3⟩⟩
  have hm : mrSectors (translate sector) = mrSectors sector := by
    unfold mrSectors; simp only [h.1, h.2]
  have hx : getWcxf env o (translate sector) scale eft basis nfOut =
      getWcxf env o sector scale eft basis nfOut := by
    unfold getWcxf; simp only [hm]
  have hc : coeffs env (translate sector) eft basis = coeffs env sector eft basis := by
    unfold coeffs; simp only [h.1, h.2]
  refine ⟨?_, hx⟩
  unfold getWc; rw [hc, hx]

/-- **C64 (content of the table).** Legacy `b → q l₁ l₂` names with different leptons translate to the
WCxf name with both pairs reversed, those with equal leptons to the lepton-universal sector; `b → q νν`
names all translate to one sector per quark; charged-current names forget the neutrino flavour and
reverse the quarks. -/
theorem C64_table_pattern :
    (∀ q ∈ ["d", "s"], ∀ l ∈ ["e", "mu", "tau"], ∀ l' ∈ ["e", "mu", "tau"],
      translate ("b" ++ q ++ l ++ l') = if l = l' then q ++ "b" else q ++ "b" ++ l' ++ l) ∧
    (∀ p ∈ [("b", "d", "dbnunu"), ("b", "s", "sbnunu"), ("s", "d", "sdnunu")],
      ∀ l ∈ ["e", "mu", "tau"], ∀ l' ∈ ["e", "mu", "tau"],
      translate (p.1 ++ p.2.1 ++ "nu" ++ l ++ "nu" ++ l') = p.2.2) ∧
    (∀ p ∈ [("b", "c"), ("b", "u"), ("d", "c"), ("d", "u"), ("s", "c"), ("s", "u")],
      ∀ l ∈ ["e", "mu", "tau"], ∀ l' ∈ ["e", "mu", "tau"],
      translate (p.1 ++ p.2 ++ l ++ "nu" ++ l') = p.2 ++ p.1 ++ l ++ "nu") := by
  decide +kernel

/-- **C64 (complete).** Whenever `get_wc` returns, every coefficient of the requested sector (in the EFT
and basis given) has a value: that returned by `match_run` if it returns one, and zero otherwise; no
coefficients outside the sector appear except those `match_run` returns. -/
theorem C64_complete (env : Env) (o : WilsonCoefficients) (sector : String) (scale : ℝ)
    (eft basis : String) (nfOut : Option Int) (cs : List String)
    (hcs : coeffs env sector eft basis = .ok cs) (d : Dict String ℂ)
    (h : getWc env o sector scale eft basis nfOut = .ok d) :
    (∀ c ∈ cs, ∃ v, Dict.get? d c = some v) ∧
    (∀ w, isSM o = false → getWcxf env o sector scale eft basis nfOut = .ok w → Dict.WF w.values →
      ∀ c, Dict.get? d c = match Dict.get? w.dict c with
        | some v => some v
        | none => if c ∈ cs then some 0 else none) := by
  unfold getWc at h
  rw [hcs, ok_bind_eq] at h
  split_ifs at h with hsm
  · cases h
    refine ⟨fun c hc => ⟨0, by rw [get?_zeros, if_pos hc]⟩, fun w h => ?_⟩
    rw [h] at hsm; cases hsm
  · obtain ⟨w, hw, h⟩ := bind_eq_ok h
    cases h
    constructor
    · intro c hc
      have : ∀ (e d : Dict String ℂ), (Dict.get? d c).isSome → (Dict.get? (update d e) c).isSome := by
        intro e
        induction e with
        | nil => exact fun d h => h
        | cons p e ih =>
          intro d h
          apply ih
          rw [Dict.get?_set]
          split_ifs
          · rfl
          · exact h
      exact Option.isSome_iff_exists.1 (this _ _ (by rw [get?_zeros, if_pos hc]; rfl))
    · intro w' _ hw' hwf c
      rw [hw] at hw'; cases hw'
      have : Dict.WF w.dict := by
        unfold Dict.WF Dict.keys WC.dict
        rw [List.map_map]
        exact hwf
      rw [get?_update _ _ this, get?_zeros]
      cases Dict.get? w.dict c <;> rfl

/-- **C64 (SM).** If no initial values are set, or all are the number zero, the result does not depend on
the external running, the scale or `nf_out`, and consists of exactly the coefficients of the sector, all
zero. -/
theorem C64_sm (env : Env) (o : WilsonCoefficients) (sector : String) (scale : ℝ)
    (eft basis : String) (nfOut : Option Int) (cs : List String)
    (hcs : coeffs env sector eft basis = .ok cs)
    (h : o.wc = none ∨ ∃ w, o.wc = some w ∧ ∀ e ∈ w.values, e.2 = .num 0) :
    ∃ d, getWc env o sector scale eft basis nfOut = .ok d ∧
      ∀ c, Dict.get? d c = if c ∈ cs then some 0 else none := by
  have hsm : isSM o = true := by
    unfold isSM
    rcases h with h | ⟨w, h, hw⟩
    · rw [h]
    · rw [h]
      simp only [Bool.not_eq_true', List.any_eq_false]
      intro e he
      rw [hw e he]
      simp [WCVal.truthy]
  refine ⟨zeros cs, ?_, get?_zeros cs⟩
  unfold getWc
  rw [hcs, ok_bind_eq, hsm, if_pos rfl]

/-- **C64 (zero values written as `{'Re': 0, 'Im': 0}`).** These count as non-zero for the short cut; the
result is still zero for every coefficient, provided `match_run` maps zero to zero. -/
theorem C64_zero_complex (env : Env) (o : WilsonCoefficients) (w : WC) (hw : o.wc = some w)
    (hz : ∀ e ∈ w.values, e.2.toC = 0) (sector : String) (scale : ℝ) (eft basis : String)
    (nfOut : Option Int) (cs : List String) (hcs : coeffs env sector eft basis = .ok cs)
    (hlin : ∀ s eft sec r, env.matchRun w s eft basis sec = .ok r → ∀ e ∈ r.values, e.2.toC = 0)
    (d : Dict String ℂ) (h : getWc env o sector scale eft basis nfOut = .ok d) :
    ∀ c v, Dict.get? d c = some v → v = 0 := by
  intro c v hv
  unfold getWc at h
  rw [hcs, ok_bind_eq] at h
  split_ifs at h with hsm
  · cases h
    rw [get?_zeros] at hv
    split_ifs at hv
    · cases hv; rfl
  · obtain ⟨r, hr, h⟩ := bind_eq_ok h
    cases h
    unfold getWcxf at hr
    obtain ⟨eft', he, hr⟩ := bind_eq_ok hr
    rw [hw] at hr
    have hall := hlin _ _ _ _ hr
    have : ∀ (e d : Dict String ℂ), (∀ p ∈ e, p.2 = 0) → (∀ v, Dict.get? d c = some v → v = 0) →
        ∀ v, Dict.get? (update d e) c = some v → v = 0 := by
      intro e
      induction e with
      | nil => exact fun d _ h => h
      | cons p e ih =>
        intro d hp h
        apply ih _ (fun q hq => hp q (List.mem_cons_of_mem _ hq))
        intro v hv
        rw [Dict.get?_set] at hv
        split_ifs at hv
        · cases hv; exact hp p (List.mem_cons_self ..)
        · exact h v hv
    refine this _ _ ?_ ?_ v hv
    · intro p hp
      obtain ⟨q, hq, rfl⟩ := List.mem_map.1 hp
      exact hall q hq
    · intro v hv
      rw [get?_zeros] at hv
      split_ifs at hv
      · cases hv; rfl

/-- **C64 (errors).** An unknown EFT/basis or sector raises `KeyError` in every state; an `nf_out` other
than 3, 4, 5 raises `ValueError` in `get_wcxf` always, and in `get_wc` exactly outside the SM. -/
theorem C64_errors (env : Env) (o : WilsonCoefficients) (sector : String) (scale : ℝ)
    (eft basis : String) (nfOut : Option Int) :
    ((eft, basis) ∉ Dict.keys env.bases →
      getWc env o sector scale eft basis nfOut = .error .keyError) ∧
    (∀ secs, Dict.get? env.bases (eft, basis) = some secs → sector ≠ "all" →
      translate sector ∉ Dict.keys secs → getWc env o sector scale eft basis nfOut = .error .keyError) ∧
    (∀ n, nfOut = some n → n ≠ 3 → n ≠ 4 → n ≠ 5 →
      getWcxf env o sector scale eft basis nfOut = .error .valueError ∧
      ∀ cs, coeffs env sector eft basis = .ok cs →
        (getWc env o sector scale eft basis nfOut = .error .valueError ↔ isSM o = false)) := by
  refine ⟨fun h => ?_, fun secs hs ha h => ?_, fun n hn h3 h4 h5 => ?_⟩
  · unfold getWc coeffs Dict.getItem
    rw [(Dict.get?_eq_none_iff _ _).2 h]; rfl
  · unfold getWc coeffs Dict.getItem
    rw [hs]
    show (if sector = "all" then _ else _) >>= _ = _
    rw [if_neg ha, (Dict.get?_eq_none_iff _ _).2 h]; rfl
  · subst hn
    have hc : chooseEft eft (some n) = .error .valueError := by
      unfold chooseEft
      split <;> simp_all
    have hx : getWcxf env o sector scale eft basis (some n) = .error .valueError := by
      unfold getWcxf; rw [hc]; rfl
    refine ⟨hx, fun cs hcs => ?_⟩
    unfold getWc
    rw [hcs, ok_bind_eq, hx]
    cases isSM o
    · simp [error_bind_eq]
    · simp

/-- **C64 (initial values).** `get_initial_wcxf` raises `ValueError` exactly if no initial values have
been set, and after any history of calls returns the values set last. -/
theorem C64_initial (o : WilsonCoefficients) (values : Dict String WCVal) (scale : ℝ)
    (eft basis : String) (w : WC) :
    getInitialWcxf init = .error .valueError ∧
    getInitialWcxf (setInitial o values scale eft basis) = .ok ⟨eft, basis, scale, values⟩ ∧
    getInitialWcxf (setInitialWcxf o w) = .ok w :=
  ⟨rfl, rfl, rfl⟩

/-- The coefficient list belongs to the `eft` argument, not to the EFT chosen by `nf_out`: with
`nf_out=4`, coefficients of the default `WET` that `WET-4` does not have are reported as zero. -/
theorem C64_nf_out_keeps_coefficients :
    ∃ (env : Env) (o : WilsonCoefficients) (d : Dict String ℂ),
      getWc env o "sb" 1 "WET" "flavio" (some 4) = .ok d ∧ Dict.get? d "C9_bsmumu" = some 0 ∧
      coeffs env "sb" "WET-4" "flavio" = .error .keyError := by
  refine ⟨⟨[(("WET", "flavio"), [("sb", ["C9_bsmumu"])]), (("WET-4", "flavio"), [("sd", ["CX"])])],
    fun w s e b _ => .ok ⟨e, b, s, []⟩⟩, ⟨some ⟨"WET", "flavio", 160, [("CX", .num 1)]⟩⟩,
    [("C9_bsmumu", 0)], ?_, ?_, ?_⟩
  · have : isSM ⟨some ⟨"WET", "flavio", 160, [("CX", .num 1)]⟩⟩ = false := by
      simp [isSM, WCVal.truthy]
    unfold getWc
    rw [this]
    rfl
  · rfl
  · decide +kernel

/-- The hypotheses of the theorems above are met: a point with a running, and the SM point. -/
example : ∃ (env : Env) (o : WilsonCoefficients) (d : Dict String ℂ), isSM o = false ∧
    getWc env o "bsmumu" 4.8 "WET" "flavio" none = .ok d ∧
    Dict.get? d "C9_bsmumu" = some (-1) ∧ Dict.get? d "C10_bsmumu" = some 0 := by
  refine ⟨⟨[(("WET", "flavio"), [("sb", ["C9_bsmumu", "C10_bsmumu"])])],
    fun w s e b _ => .ok ⟨e, b, s, w.values⟩⟩, ⟨some ⟨"WET", "flavio", 160, [("C9_bsmumu", .num (-1))]⟩⟩,
    [("C9_bsmumu", ((-1 : ℝ) : ℂ)), ("C10_bsmumu", 0)], ?_, ?_, ?_, ?_⟩
  · simp [isSM, WCVal.truthy]
  · have : isSM ⟨some ⟨"WET", "flavio", 160, [("C9_bsmumu", .num (-1))]⟩⟩ = false := by
      simp [isSM, WCVal.truthy]
    unfold getWc
    rw [this]
    rfl
  · show some (((-1 : ℝ) : ℂ)) = _
    simp
  · rfl

end Verif.Eft
