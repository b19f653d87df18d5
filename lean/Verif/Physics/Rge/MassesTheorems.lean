import Verif.Physics.Rge.Masses
import Mathlib.Tactic.NormNum
import Mathlib.Tactic.Linarith
/-!
# Running masses and couplings: what is handed to the running, and with how many flavours
-/
set_option linter.unusedVariables false
set_option linter.unusedSimpArgs false
namespace Verif.Running
open Verif.Py

/-- Specification: the number of active flavours at a scale — three light ones plus every heavy quark whose
threshold has been passed. -/
noncomputable def flavours (t : Thr) (μ : ℝ) : ℕ :=
  3 + (if t.mc ≤ μ then 1 else 0) + (if t.mb ≤ μ then 1 else 0) + (if t.mt ≤ μ then 1 else 0)

/-- Specification: the number of flavours used — the requested one, otherwise the active ones. -/
noncomputable def usedFlavours (t : Thr) (μ : ℝ) (nfOut : Option ℕ) : ℕ :=
  if nfOut.getD 0 = 0 then flavours t μ else nfOut.getD 0

theorem getNf_eq {t : Thr} (h1 : t.mc ≤ t.mb) (h2 : t.mb ≤ t.mt) (μ : ℝ) : getNf t μ = .ok (flavours t μ) := by
  unfold getNf flavours
  by_cases a : t.mt ≤ μ
  · have b : t.mb ≤ μ := h2.trans a
    have c : t.mc ≤ μ := h1.trans b
    simp [a, b, c]
  · by_cases b : t.mb ≤ μ
    · have c : t.mc ≤ μ := h1.trans b
      simp [a, b, c, lt_of_not_ge a]
    · by_cases c : t.mc ≤ μ
      · simp [a, b, c, lt_of_not_ge b]
      · simp [a, b, c, lt_of_not_ge c]

/-- **C155.** With ordered thresholds the number of flavours is the requested one if it is given and not zero, and
otherwise the number of active flavours. -/
theorem C155_flavours {t : Thr} (h1 : t.mc ≤ t.mb) (h2 : t.mb ≤ t.mt) (μ : ℝ) (nfOut : Option ℕ) :
    chooseNf t μ nfOut = .ok (usedFlavours t μ nfOut) := by
  unfold chooseNf usedFlavours
  rcases nfOut with _ | n
  · simpa using getNf_eq h1 h2 μ
  · rcases n with _ | n
    · simpa using getNf_eq h1 h2 μ
    · simp

/-- Specification: the mass parameter and the running function belonging to a quark. -/
def massOf (e : Ext) : String → Option (String × (ℝ → ℝ → ℕ → ℝ → ℝ))
  | "u" => some ("m_u", e.mS)
  | "d" => some ("m_d", e.mS)
  | "s" => some ("m_s", e.mS)
  | "c" => some ("m_c", e.mC)
  | "b" => some ("m_b", e.mB)
  | _ => none

theorem getMq_eq (e : Ext) (q : String) (t : Thr) (par : Dict String ℝ) (μ : ℝ) (nfOut : Option ℕ) :
    getMq e q t par μ nfOut = match massOf e q with
      | some (n, f) => runMass f n t par μ nfOut
      | none => .error .keyError := by
  unfold getMq
  by_cases hu : q = "u"
  · subst hu; rfl
  by_cases hc : q = "c"
  · subst hc; rfl
  by_cases hd : q = "d"
  · subst hd; rfl
  by_cases hs : q = "s"
  · subst hs; rfl
  by_cases hb : q = "b"
  · subst hb; rfl
  rw [if_neg hu, if_neg hc, if_neg hd, if_neg hs, if_neg hb]
  unfold massOf
  split <;> simp_all

/-- **C155.** The running mass of quark `q` is its own mass parameter run to the asked scale with the right number
of flavours; there is no running mass for any other name (in particular not for `t`): `KeyError`. -/
theorem C155_running_mass (e : Ext) (q : String) {t : Thr} (h1 : t.mc ≤ t.mb) (h2 : t.mb ≤ t.mt)
    (par : Dict String ℝ) (μ : ℝ) (nfOut : Option ℕ) :
    (∀ n f m a, massOf e q = some (n, f) → par.get? n = some m → par.get? "alpha_s" = some a →
      getMq e q t par μ nfOut = .ok (f m μ (usedFlavours t μ nfOut) a)) ∧
    (q ∉ ["u", "d", "s", "c", "b"] → getMq e q t par μ nfOut = .error .keyError) := by
  constructor
  · intro n f m a hq hm ha
    rw [getMq_eq, hq]
    simp only [runMass, C155_flavours h1 h2, parGet, hm, ha, ok_bind_eq]
    rfl
  · intro hq
    rw [getMq_eq]
    simp only [List.mem_cons, List.not_mem_nil, or_false, not_or] at hq
    obtain ⟨a, b, c, d, f⟩ := hq
    have : massOf e q = none := by
      unfold massOf
      split <;> simp_all
    rw [this]

/-- **C155.** A running mass depends on the parameters only through the quark's own mass and `alpha_s`. -/
theorem C155_mass_depends_only_on (e : Ext) (q : String) (t : Thr) (par par' : Dict String ℝ) (μ : ℝ)
    (nfOut : Option ℕ) (ha : par.get? "alpha_s" = par'.get? "alpha_s")
    (hm : par.get? ("m_" ++ q) = par'.get? ("m_" ++ q)) :
    getMq e q t par μ nfOut = getMq e q t par' μ nfOut := by
  unfold getMq
  have key : ∀ f, runMass f ("m_" ++ q) t par μ nfOut = runMass f ("m_" ++ q) t par' μ nfOut := by
    intro f
    simp only [runMass, parGet, ha, hm]
  by_cases hu : q = "u"
  · subst hu; exact key _
  by_cases hc : q = "c"
  · subst hc; exact key _
  by_cases hd : q = "d"
  · subst hd; exact key _
  by_cases hs : q = "s"
  · subst hs; exact key _
  by_cases hb : q = "b"
  · subst hb; exact key _
  rw [if_neg hu, if_neg hc, if_neg hd, if_neg hs, if_neg hb, if_neg hu, if_neg hc, if_neg hd, if_neg hs,
    if_neg hb]

/-- **C155.** Ratios of light quark masses do not run (when the mass running is multiplicative, as the RGE is). -/
theorem C155_light_ratio (e : Ext) (R : ℝ → ℕ → ℝ → ℝ) (hR : ∀ m μ nf a, e.mS m μ nf a = m * R μ nf a)
    {t : Thr} (h1 : t.mc ≤ t.mb) (h2 : t.mb ≤ t.mt) (par : Dict String ℝ) (q q' : String)
    (hq : q ∈ ["u", "d", "s"]) (hq' : q' ∈ ["u", "d", "s"]) (m m' a μ : ℝ) (nfOut : Option ℕ)
    (hm : par.get? ("m_" ++ q) = some m) (hm' : par.get? ("m_" ++ q') = some m')
    (ha : par.get? "alpha_s" = some a) :
    ∃ x x', getMq e q t par μ nfOut = .ok x ∧ getMq e q' t par μ nfOut = .ok x' ∧ x * m' = x' * m := by
  have val : ∀ q ∈ ["u", "d", "s"], ∀ m, par.get? ("m_" ++ q) = some m →
      getMq e q t par μ nfOut = .ok (m * R μ (usedFlavours t μ nfOut) a) := by
    intro q hq m hm
    rw [← hR]
    simp only [List.mem_cons, List.not_mem_nil, or_false] at hq
    rcases hq with rfl | rfl | rfl
    · exact (C155_running_mass e _ h1 h2 par μ nfOut).1 "m_u" e.mS m a rfl hm ha
    · exact (C155_running_mass e _ h1 h2 par μ nfOut).1 "m_d" e.mS m a rfl hm ha
    · exact (C155_running_mass e _ h1 h2 par μ nfOut).1 "m_s" e.mS m a rfl hm ha
  exact ⟨_, _, val q hq m hm, val q' hq' m' hm', by ring⟩

/-- **C155.** `get_alpha` gives both couplings at the same scale and with the same number of flavours, and
`alpha_s` there is what `get_alpha_s` gives. -/
theorem C155_couplings (e : Ext) {t : Thr} (h1 : t.mc ≤ t.mb) (h2 : t.mb ≤ t.mt) (par : Dict String ℝ) (μ : ℝ)
    (nfOut : Option ℕ) (ae as : ℝ) (he : par.get? "alpha_e" = some ae) (hs : par.get? "alpha_s" = some as) :
    getAlphaS e t par μ nfOut = .ok (e.alphaS μ (usedFlavours t μ nfOut) as) ∧
    getAlpha e t par μ nfOut = (getAlphaE t ae μ nfOut).map (fun x => ⟨x, e.alphaS μ (usedFlavours t μ nfOut) as⟩) ∧
    getAlphaE t ae μ nfOut = alphaENf t ae μ (usedFlavours t μ nfOut) := by
  have h0 : getAlphaS e t par μ nfOut = .ok (e.alphaS μ (usedFlavours t μ nfOut) as) := by
    simp only [getAlphaS, C155_flavours h1 h2, parGet, hs, ok_bind_eq]
    rfl
  have h3 : getAlphaE t ae μ nfOut = alphaENf t ae μ (usedFlavours t μ nfOut) := by
    simp only [getAlphaE, C155_flavours h1 h2, ok_bind_eq]
  refine ⟨h0, ?_, h3⟩
  unfold getAlpha
  rw [h0, h3]
  simp only [getAlphaEPar, C155_flavours h1 h2, parGet, he, ok_bind_eq]
  cases alphaENf t ae μ (usedFlavours t μ nfOut) <;> rfl

/-- The coupling used in the conversions: `alpha_s` at the scale of the mass with the active flavours there. -/
theorem getAlpha_none (e : Ext) {t : Thr} (h1 : t.mc ≤ t.mb) (h2 : t.mb ≤ t.mt) (par : Dict String ℝ) (μ : ℝ)
    (ae as : ℝ) (he : par.get? "alpha_e" = some ae) (hs : par.get? "alpha_s" = some as) :
    getAlpha e t par μ none = (alphaENf t ae μ (flavours t μ)).map (fun x => ⟨x, e.alphaS μ (flavours t μ) as⟩) := by
  obtain ⟨-, h, h'⟩ := C155_couplings e h1 h2 par μ none ae as he hs
  rw [h, h']
  simp [usedFlavours]

/-- **C155.** Pole, kinetic and 1S masses: each is converted from the quark's own mass with `alpha_s` at the scale of
that mass, with the documented loop orders (`alpha_e` matters only in that its running must not fail). -/
theorem C155_conversions (e : Ext) {t : Thr} (h1 : t.mc ≤ t.mb) (h2 : t.mb ≤ t.mt) (par : Dict String ℝ)
    (ae as mc mb mt : ℝ) (he : par.get? "alpha_e" = some ae) (hs : par.get? "alpha_s" = some as)
    (hc : par.get? "m_c" = some mc) (hb : par.get? "m_b" = some mb) (ht : par.get? "m_t" = some mt) (μ : ℝ) (nl : ℕ) :
    (∀ x, alphaENf t ae mc (flavours t mc) = .ok x →
      getMcPole e t par nl = .ok (e.mMS2mOS mc (e.alphaS mc (flavours t mc) as) mc 4 nl) ∧
      getMcPole e t par = getMcPole e t par 2 ∧
      getMcKS e t par μ = .ok (e.mMS2mKS mc 3 (e.alphaS mc (flavours t mc) as) μ 3)) ∧
    (∀ x, alphaENf t ae mb (flavours t mb) = .ok x →
      getMbPole e t par nl = .ok (e.mMS2mOS mb (e.alphaS mb (flavours t mb) as) mb 5 nl) ∧
      getMbPole e t par = getMbPole e t par 2 ∧
      getMbKS e t par μ = .ok (e.mMS2mKS mb 4 (e.alphaS mb (flavours t mb) as) μ 3) ∧
      getMb1S e t par nl = .ok (e.mMS2m1S mb (e.alphaS mb (flavours t mb) as) mb 5 nl) ∧
      getMb1S e t par = getMb1S e t par 3) ∧
    getMt e t par μ = .ok (e.mOS2mMS mt (e.alphaS μ (flavours t μ) as) μ 6 3) ∧
    getMtMt e t par = .ok (e.mOS2mSI mt (e.alphaS mt (flavours t mt) as) 6 3) := by
  have gs : ∀ μ, getAlphaS e t par μ none = .ok (e.alphaS μ (flavours t μ) as) := by
    intro μ
    have := (C155_couplings e h1 h2 par μ none ae as he hs).1
    simpa [usedFlavours] using this
  refine ⟨fun x hx => ⟨?_, rfl, ?_⟩, fun x hx => ⟨?_, rfl, ?_, ?_, rfl⟩, ?_, ?_⟩
  · simp only [getMcPole, parGet, hc, ok_bind_eq, getAlpha_none e h1 h2 par mc ae as he hs, hx, Except.map]; rfl
  · simp only [getMcKS, parGet, hc, ok_bind_eq, getAlpha_none e h1 h2 par mc ae as he hs, hx, Except.map]; rfl
  · simp only [getMbPole, parGet, hb, ok_bind_eq, getAlpha_none e h1 h2 par mb ae as he hs, hx, Except.map]; rfl
  · simp only [getMbKS, parGet, hb, ok_bind_eq, getAlpha_none e h1 h2 par mb ae as he hs, hx, Except.map]; rfl
  · simp only [getMb1S, parGet, hb, ok_bind_eq, getAlpha_none e h1 h2 par mb ae as he hs, hx, Except.map]; rfl
  · simp only [getMt, parGet, ht, ok_bind_eq, gs]; rfl
  · simp only [getMtMt, parGet, ht, ok_bind_eq, gs]; rfl

/-- **C155.** When does the coupling have the number of flavours the conversion formula is for?  For the charm (4)
exactly when the charm mass is between the charm and bottom thresholds, for the bottom (5) when it is between the
bottom and top thresholds, for the top (6) when the scale is above the top threshold. -/
theorem C155_consistent_flavours_partial {t : Thr} (h1 : t.mc < t.mb) (h2 : t.mb < t.mt) (m : ℝ) :
    (flavours t m = 4 ↔ t.mc ≤ m ∧ m < t.mb) ∧ (flavours t m = 5 ↔ t.mb ≤ m ∧ m < t.mt) ∧
    (flavours t m = 6 ↔ t.mt ≤ m) := by
  unfold flavours
  by_cases a : t.mt ≤ m
  · have b : t.mb ≤ m := h2.le.trans a
    have c : t.mc ≤ m := h1.le.trans b
    simp [a, b, c, not_lt.2 a, not_lt.2 b]
  · by_cases b : t.mb ≤ m
    · have c : t.mc ≤ m := h1.le.trans b
      simp [a, b, c, not_le.1 a, not_lt.2 b]
    · by_cases c : t.mc ≤ m
      · simp [a, b, c, not_le.1 b]
      · simp [a, b, c]

/-- The thresholds of /repo/flavio/data/config.yml:85-88. -/
noncomputable def defaultThr : Thr := ⟨1.275, 4.18, 173.21⟩

/-- **C155 (why only partial).** With flavio's default thresholds and the default charm mass 1.273
(/repo/flavio/data/parameters_correlated.yml:9) the four-flavour conversion to the charm pole mass is fed with the
three-flavour coupling; for the default bottom mass 4.195 the coupling is the five-flavour one, but already a value
one and a half standard deviations lower (4.17) gets the four-flavour coupling. -/
theorem C155_default_charm_mismatch :
    flavours defaultThr 1.273 = 3 ∧ flavours defaultThr 4.195 = 5 ∧ flavours defaultThr 4.17 = 4 := by
  unfold flavours defaultThr
  norm_num

/-- **C155.** Because of this the coupling entering the charm pole mass jumps when the charm mass crosses the
threshold: below it the three-flavour coupling is used, from it on the four-flavour one. -/
theorem C155_jump (e : Ext) {t : Thr} (h1 : t.mc < t.mb) (h2 : t.mb < t.mt) (as : ℝ) :
    (∀ m < t.mc, e.alphaS m (flavours t m) as = e.alphaS m 3 as) ∧
    (∀ m, t.mc ≤ m → m < t.mb → e.alphaS m (flavours t m) as = e.alphaS m 4 as) := by
  constructor
  · intro m hm
    have : flavours t m = 3 := by
      unfold flavours
      have c : ¬ t.mc ≤ m := not_le.2 hm
      have b : ¬ t.mb ≤ m := not_le.2 (hm.trans h1)
      have a : ¬ t.mt ≤ m := not_le.2 ((hm.trans h1).trans h2)
      simp [a, b, c]
    rw [this]
  · intro m h3 h4
    rw [((C155_consistent_flavours_partial h1 h2 m).1).2 ⟨h3, h4⟩]

/-- Non-vacuity: the default thresholds are ordered and a parameter dictionary with all entries exists. -/
theorem C155_nonvacuous :
    defaultThr.mc < defaultThr.mb ∧ defaultThr.mb < defaultThr.mt ∧
    ∃ par : Dict String ℝ, par.get? "alpha_s" = some 0.1185 ∧ par.get? "m_c" = some 1.273 ∧
      par.get? "m_b" = some 4.195 ∧ par.get? "m_u" = some 0.002 ∧ par.get? "alpha_e" = some (1 / 128) ∧
      par.get? "m_t" = some 173 := by
  refine ⟨by norm_num [defaultThr], by norm_num [defaultThr],
    [("alpha_s", 0.1185), ("m_c", 1.273), ("m_b", 4.195), ("m_u", 0.002), ("alpha_e", 1 / 128), ("m_t", 173)], ?_⟩
  simp [Dict.get?]

end Verif.Running
