import Verif.Physics.Quarkonium.Registration
import Mathlib.Data.List.Induction
import Mathlib.Tactic.Linarith
import Mathlib.Tactic.Ring
/-!
# The registered leptonic modes are those their names say
-/
set_option linter.unusedVariables false
set_option linter.unusedSimpArgs false
set_option linter.unusedSectionVars false
namespace Verif.Registration
open Verif.Py

/-- Specification: the charged leptons. -/
def leptons : List String := ["e", "mu", "tau"]

/-- Specification: the observable `name` exists and its prediction has the value `v`. -/
def Predicts (br : String → String → String → ℝ) (bree : String → ℝ) (r : Dict String Pred) (name : String) (v : ℝ) :
    Prop := ∃ p, Dict.get? r name = some p ∧ p.eval br bree = v

/-- Specification: the end of the name: with or without a photon. -/
def suffix (gam : Bool) : String := if gam then "gamma)" else ")"

/-- Specification: names of mesons have no arrow in them. -/
def Plain (mesons : List String) : Prop := ∀ M ∈ mesons, '>' ∉ M.toList

/-! ### Dictionaries written several times -/

theorem get?_ofPairs {V : Type} (l : List (String × V)) (n : String) (v : V) (h : (n, v) ∈ l)
    (hu : ∀ e ∈ l, e.1 = n → e.2 = v) : Dict.get? (Dict.ofPairs l) n = some v := by
  induction l using List.reverseRecOn with
  | nil => simp at h
  | append_singleton l e ih =>
    unfold Dict.ofPairs at ih ⊢
    rw [List.foldl_append]
    simp only [List.foldl_cons, List.foldl_nil]
    rw [Dict.get?_set]
    by_cases he : e.1 = n
    · rw [if_pos he, hu e (by simp) he]
    · rw [if_neg he]
      refine ih ?_ (fun e' h' => hu e' (by simp [h']))
      rcases List.mem_append.1 h with h | h
      · exact h
      · simp only [List.mem_singleton] at h
        exact absurd (by rw [← h]) he

theorem get?_ofPairs_none {V : Type} (l : List (String × V)) (n : String) (h : ∀ e ∈ l, e.1 ≠ n) :
    Dict.get? (Dict.ofPairs l) n = none := by
  induction l using List.reverseRecOn with
  | nil => rfl
  | append_singleton l e ih =>
    unfold Dict.ofPairs at ih ⊢
    rw [List.foldl_append]
    simp only [List.foldl_cons, List.foldl_nil]
    rw [Dict.get?_set, if_neg (h e (by simp))]
    exact ih fun e' h' => h e' (by simp [h'])

/-! ### Names -/

theorem split_gt {a a' b b' : List Char} (ha : '>' ∉ a) (ha' : '>' ∉ a') (h : a ++ '>' :: b = a' ++ '>' :: b') :
    a = a' ∧ b = b' := by
  induction a generalizing a' with
  | nil =>
    cases a' with
    | nil => simpa using h
    | cons c a' =>
      simp only [List.nil_append, List.cons_append, List.cons.injEq] at h
      exact absurd (h.1 ▸ List.mem_cons_self) ha'
  | cons c a ih =>
    cases a' with
    | nil =>
      simp only [List.nil_append, List.cons_append, List.cons.injEq] at h
      exact absurd (h.1 ▸ List.mem_cons_self) ha
    | cons c' a' =>
      simp only [List.cons_append, List.cons.injEq] at h
      obtain ⟨h1, h2⟩ := ih (fun m => ha (List.mem_cons_of_mem _ m)) (fun m => ha' (List.mem_cons_of_mem _ m)) h.2
      exact ⟨by rw [h.1, h1], h2⟩

theorem name_inj {k k' M M' ll ll' suf : String} (hk : k ∈ ["BR(", "R("]) (hk' : k' ∈ ["BR(", "R("])
    (hM : '>' ∉ M.toList) (hM' : '>' ∉ M'.toList) (h : obsName k M ll suf = obsName k' M' ll' suf) :
    k = k' ∧ M = M' ∧ ll = ll' := by
  have h1 := congrArg String.toList h
  unfold obsName at h1
  simp only [String.toList_append] at h1
  have e : "->".toList = ['-', '>'] := by decide
  rw [e] at h1
  have h2 : (k.toList ++ M.toList ++ ['-']) ++ '>' :: (ll.toList ++ suf.toList) =
      (k'.toList ++ M'.toList ++ ['-']) ++ '>' :: (ll'.toList ++ suf.toList) := by
    simpa [List.append_assoc] using h1
  have hkk : '>' ∉ k.toList := by
    simp only [List.mem_cons, List.not_mem_nil, or_false] at hk; rcases hk with rfl | rfl <;> decide
  have hkk' : '>' ∉ k'.toList := by
    simp only [List.mem_cons, List.not_mem_nil, or_false] at hk'; rcases hk' with rfl | rfl <;> decide
  obtain ⟨h3, h4⟩ := split_gt (by simp [hkk, hM]) (by simp [hkk', hM']) h2
  have h5 : k.toList ++ M.toList = k'.toList ++ M'.toList := List.append_cancel_right h3
  have h6 : ll = ll' := String.toList_inj.1 (List.append_cancel_right h4)
  have a1 : "BR(".toList = ['B', 'R', '('] := by decide
  have a2 : "R(".toList = ['R', '('] := by decide
  simp only [List.mem_cons, List.not_mem_nil, or_false] at hk hk'
  rcases hk with rfl | rfl <;> rcases hk' with rfl | rfl <;> simp only [a1, a2] at h5 <;> simp_all [String.toList_inj]

/-! ### Tables of what one meson registers -/

/-- (Specification.) -/
inductive PK where
  | br | comb | ratio | ratioComb
  deriving DecidableEq

/-- (Specification.) -/
structure Row where
  kind : String
  ll : String
  pk : PK
  l1 : String
  l2 : String
  deriving DecidableEq

/-- (Specification.) -/
def Row.pred (r : Row) (M : String) : Pred := match r.pk with
  | .br => .br M r.l1 r.l2
  | .comb => .comb M r.l1 r.l2
  | .ratio => .ratio M r.l1 r.l2
  | .ratioComb => .ratioComb M r.l1 r.l2

/-- (Specification.) -/
def Row.act (suf : String) (M : String) (r : Row) : String × Pred := (obsName r.kind M r.ll suf, r.pred M)

/-- (Specification.) -/
def vTab (gam : Bool) : List Row :=
  lfvPairs.flatMap (fun p => [⟨"BR(", p.1 ++ p.2, .br, p.1, p.2⟩, ⟨"R(", p.1 ++ p.2, .ratio, p.1, p.2⟩]) ++
  pairs.flatMap (fun p => [⟨"BR(", combName p.1 p.2, .comb, p.1, p.2⟩, ⟨"R(", combName p.1 p.2, .ratioComb, p.1, p.2⟩,
    ⟨"BR(", combName p.2 p.1, .comb, p.1, p.2⟩, ⟨"R(", combName p.2 p.1, .ratioComb, p.1, p.2⟩]) ++
  if gam then [] else leptons.map (fun l => ⟨"BR(", l ++ l, .br, l, l⟩)

/-- (Specification.) -/
def pTab : List Row :=
  lfvPairs.map (fun p => ⟨"BR(", p.1 ++ p.2, .br, p.1, p.2⟩) ++
  pairs.flatMap (fun _ => [⟨"BR(", combName "tau" "mu", .comb, "tau", "mu"⟩, ⟨"BR(", combName "mu" "tau", .comb, "tau", "mu"⟩])

theorem vll_log (gam : Bool) (s : St) (M : String) :
    (vllStep gam s M).log = s.log ++ (vTab gam).map (Row.act (suffix gam) M) := by
  cases gam <;>
    simp [vllStep, vTab, lfvPairs, pairs, leptons, St.reg, Row.act, Row.pred, suffix, List.append_assoc]

theorem pll_log (s : St) (M : String) : (pllStep s M).log = s.log ++ pTab.map (Row.act ")" M) := by
  simp [pllStep, pTab, lfvPairs, pairs, St.reg, Row.act, Row.pred, List.append_assoc]

theorem fold_log (step : St → String → St) (f : String → List (String × Pred))
    (h : ∀ s M, (step s M).log = s.log ++ f M) (ms : List String) (s : St) :
    (ms.foldl step s).log = s.log ++ ms.flatMap f := by
  induction ms generalizing s with
  | nil => simp
  | cons m ms ih => rw [List.foldl_cons, ih, h]; simp [List.append_assoc]

/-- A row of the table is what is found under its name. -/
theorem lookup {tab : List Row} {suf : String} {ms : List String} (hp : Plain ms)
    (hk : ∀ r ∈ tab, r.kind ∈ ["BR(", "R("]) (hf : ∀ r ∈ tab, ∀ r' ∈ tab, r.kind = r'.kind → r.ll = r'.ll → r = r')
    {M : String} (hM : M ∈ ms) {r : Row} (hr : r ∈ tab) :
    Dict.get? (Dict.ofPairs (ms.flatMap fun M => tab.map (Row.act suf M))) (obsName r.kind M r.ll suf) = some (r.pred M) := by
  refine get?_ofPairs _ _ _ (List.mem_flatMap.2 ⟨M, hM, List.mem_map.2 ⟨r, hr, rfl⟩⟩) ?_
  intro e he hn
  obtain ⟨M', hM', he⟩ := List.mem_flatMap.1 he
  obtain ⟨r', hr', rfl⟩ := List.mem_map.1 he
  obtain ⟨h1, h2, h3⟩ := name_inj (hk r' hr') (hk r hr) (hp M' hM') (hp M hM) hn
  subst h2
  rw [hf r' hr' r hr h1 h3]
  rfl

theorem lookup_none {tab : List Row} {suf : String} {ms : List String} (hp : Plain ms)
    (hk : ∀ r ∈ tab, r.kind ∈ ["BR(", "R("]) {M : String} (hM : M ∈ ms) {k ll : String} (hkk : k ∈ ["BR(", "R("])
    (hn : ∀ r ∈ tab, r.kind = k → r.ll ≠ ll) :
    Dict.get? (Dict.ofPairs (ms.flatMap fun M => tab.map (Row.act suf M))) (obsName k M ll suf) = none := by
  refine get?_ofPairs_none _ _ ?_
  intro e he heq
  obtain ⟨M', hM', he⟩ := List.mem_flatMap.1 he
  obtain ⟨r', hr', rfl⟩ := List.mem_map.1 he
  obtain ⟨h1, h2, h3⟩ := name_inj (hk r' hr') hkk (hp M' hM') (hp M hM) heq
  exact hn r' hr' h1 h3

theorem vTab_kind (gam) : ∀ r ∈ vTab gam, r.kind ∈ ["BR(", "R("] := by cases gam <;> decide +kernel
theorem vTab_fun (gam) : ∀ r ∈ vTab gam, ∀ r' ∈ vTab gam, r.kind = r'.kind → r.ll = r'.ll → r = r' := by
  cases gam <;> decide +kernel
theorem pTab_kind : ∀ r ∈ pTab, r.kind ∈ ["BR(", "R("] := by decide +kernel
theorem pTab_fun : ∀ r ∈ pTab, ∀ r' ∈ pTab, r.kind = r'.kind → r.ll = r'.ll → r = r' := by decide +kernel

theorem vll_eq (gam : Bool) (ms : List String) :
    vll gam ms = Dict.ofPairs (ms.flatMap fun M => (vTab gam).map (Row.act (suffix gam) M)) := by
  unfold vll
  rw [fold_log _ _ (vll_log gam)]; rfl

theorem pll_eq (ms : List String) : pll ms = Dict.ofPairs (ms.flatMap fun M => pTab.map (Row.act ")" M)) := by
  unfold pll
  rw [fold_log _ _ pll_log]; rfl

theorem vrow (gam : Bool) {l1 l2 : String} (h1 : l1 ∈ leptons) (h2 : l2 ∈ leptons) (hne : l1 ≠ l2) :
    (⟨"BR(", l1 ++ l2, .br, l1, l2⟩ : Row) ∈ vTab gam ∧ (⟨"R(", l1 ++ l2, .ratio, l1, l2⟩ : Row) ∈ vTab gam ∧
    (∃ a b, (a = l1 ∧ b = l2 ∨ a = l2 ∧ b = l1) ∧ (⟨"BR(", combName l1 l2, .comb, a, b⟩ : Row) ∈ vTab gam ∧
      (⟨"R(", combName l1 l2, .ratioComb, a, b⟩ : Row) ∈ vTab gam) := by
  simp only [leptons, List.mem_cons, List.not_mem_nil, or_false] at h1 h2
  rcases h1 with rfl | rfl | rfl <;> rcases h2 with rfl | rfl | rfl <;>
    first
      | exact absurd rfl hne
      | (cases gam <;> exact ⟨by decide +kernel, by decide +kernel, _, _, Or.inl ⟨rfl, rfl⟩, by decide +kernel, by decide +kernel⟩)
      | (cases gam <;> exact ⟨by decide +kernel, by decide +kernel, _, _, Or.inr ⟨rfl, rfl⟩, by decide +kernel, by decide +kernel⟩)

/-- **C161.** `V → ℓ₁ ℓ₂ (γ)`: for every meson of the table and every pair of different leptons, the branching ratio, the
ratio to `e e` and both of them summed over charges are registered under their names and predict just that. -/
theorem C161_vector (br : String → String → String → ℝ) (bree : String → ℝ) (gam : Bool) (ms : List String)
    (hp : Plain ms) (M : String) (hM : M ∈ ms) (l1 l2 : String) (h1 : l1 ∈ leptons) (h2 : l2 ∈ leptons) (hne : l1 ≠ l2) :
    Predicts br bree (vll gam ms) ("BR(" ++ M ++ "->" ++ (l1 ++ l2) ++ suffix gam) (br M l1 l2) ∧
    Predicts br bree (vll gam ms) ("R(" ++ M ++ "->" ++ (l1 ++ l2) ++ suffix gam) (br M l1 l2 / bree M) ∧
    Predicts br bree (vll gam ms) ("BR(" ++ M ++ "->" ++ (l1 ++ l2 ++ "," ++ l2 ++ l1) ++ suffix gam)
      (br M l1 l2 + br M l2 l1) ∧
    Predicts br bree (vll gam ms) ("R(" ++ M ++ "->" ++ (l1 ++ l2 ++ "," ++ l2 ++ l1) ++ suffix gam)
      ((br M l1 l2 + br M l2 l1) / bree M) := by
  obtain ⟨r1, r2, a, b, hab, r3, r4⟩ := vrow gam h1 h2 hne
  have hc : l1 ++ l2 ++ "," ++ l2 ++ l1 = combName l1 l2 := rfl
  have hn : ∀ k x t : String, k ++ M ++ "->" ++ x ++ t = obsName k M x t := fun _ _ _ => rfl
  rw [vll_eq, hc, hn, hn, hn, hn]
  have k1 := lookup (suf := suffix gam) hp (vTab_kind gam) (vTab_fun gam) hM r1
  have k2 := lookup (suf := suffix gam) hp (vTab_kind gam) (vTab_fun gam) hM r2
  have k3 := lookup (suf := suffix gam) hp (vTab_kind gam) (vTab_fun gam) hM r3
  have k4 := lookup (suf := suffix gam) hp (vTab_kind gam) (vTab_fun gam) hM r4
  refine ⟨⟨_, k1, rfl⟩, ⟨_, k2, rfl⟩, ⟨_, k3, ?_⟩, ⟨_, k4, ?_⟩⟩
  · rcases hab with ⟨rfl, rfl⟩ | ⟨rfl, rfl⟩
    · rfl
    · simp only [Row.pred, Pred.eval]; ring
  · rcases hab with ⟨rfl, rfl⟩ | ⟨rfl, rfl⟩
    · rfl
    · simp only [Row.pred, Pred.eval]; ring

/-- **C161.** `V → ℓ ℓ` with equal flavours. -/
theorem C161_vector_equal (br : String → String → String → ℝ) (bree : String → ℝ) (ms : List String)
    (hp : Plain ms) (M : String) (hM : M ∈ ms) (l : String) (h : l ∈ leptons) :
    Predicts br bree (vll false ms) ("BR(" ++ M ++ "->" ++ (l ++ l) ++ ")") (br M l l) := by
  rw [vll_eq]
  have hr : (⟨"BR(", l ++ l, .br, l, l⟩ : Row) ∈ vTab false := by
    simp only [vTab, Bool.false_eq_true, if_false, List.mem_append, List.mem_map]
    exact Or.inr ⟨l, h, rfl⟩
  have hn : ∀ k x t : String, k ++ M ++ "->" ++ x ++ t = obsName k M x t := fun _ _ _ => rfl
  rw [hn]
  have k1 := lookup (suf := suffix false) hp (vTab_kind false) (vTab_fun false) hM hr
  exact ⟨_, k1, rfl⟩

/-- **C161 (partial).** Pseudoscalar and scalar quarkonium: the individual modes are right; of the modes summed over
charges only `μτ` is there (missing: `eμ` and `eτ`, see `C161_combined_missing`). -/
theorem C161_scalar_partial (br : String → String → String → ℝ) (bree : String → ℝ) (ms : List String)
    (hp : Plain ms) (M : String) (hM : M ∈ ms) (l1 l2 : String) (h1 : l1 ∈ leptons) (h2 : l2 ∈ leptons) (hne : l1 ≠ l2) :
    Predicts br bree (pll ms) ("BR(" ++ M ++ "->" ++ (l1 ++ l2) ++ ")") (br M l1 l2) ∧
    (l1 ≠ "e" → l2 ≠ "e" → Predicts br bree (pll ms) ("BR(" ++ M ++ "->" ++ (l1 ++ l2 ++ "," ++ l2 ++ l1) ++ ")")
      (br M l1 l2 + br M l2 l1)) := by
  have hc : l1 ++ l2 ++ "," ++ l2 ++ l1 = combName l1 l2 := rfl
  have hn : ∀ k x t : String, k ++ M ++ "->" ++ x ++ t = obsName k M x t := fun _ _ _ => rfl
  rw [pll_eq, hc, hn, hn]
  simp only [leptons, List.mem_cons, List.not_mem_nil, or_false] at h1 h2
  constructor
  · have hr : (⟨"BR(", l1 ++ l2, .br, l1, l2⟩ : Row) ∈ pTab := by
      rcases h1 with rfl | rfl | rfl <;> rcases h2 with rfl | rfl | rfl <;>
        first | exact absurd rfl hne | decide +kernel
    have k1 := lookup (suf := ")") hp pTab_kind pTab_fun hM hr
    exact ⟨_, k1, rfl⟩
  · intro he1 he2
    have hr : (⟨"BR(", combName l1 l2, .comb, "tau", "mu"⟩ : Row) ∈ pTab := by
      rcases h1 with rfl | rfl | rfl <;> rcases h2 with rfl | rfl | rfl <;>
        first | exact absurd rfl hne | exact absurd rfl he1 | exact absurd rfl he2 | decide +kernel
    have k1 := lookup (suf := ")") hp pTab_kind pTab_fun hM hr
    refine ⟨_, k1, ?_⟩
    simp only [Row.pred, Pred.eval]
    rcases h1 with rfl | rfl | rfl <;> rcases h2 with rfl | rfl | rfl <;>
      first | exact absurd rfl hne | exact absurd rfl he1 | exact absurd rfl he2 | rfl | (ring)

/-- **C161 (why only partial).** Whatever the table of mesons, the observables for `e^± μ^∓` and `e^± τ^∓` of
pseudoscalar and scalar quarkonium do not exist. -/
theorem C161_combined_missing (ms : List String) (hp : Plain ms) (M : String) (hM : M ∈ ms) (l : String)
    (h : l = "mu" ∨ l = "tau") :
    Dict.get? (pll ms) ("BR(" ++ M ++ "->" ++ ("e" ++ l ++ "," ++ l ++ "e") ++ ")") = none ∧
    Dict.get? (pll ms) ("BR(" ++ M ++ "->" ++ (l ++ "e" ++ "," ++ "e" ++ l) ++ ")") = none := by
  have hn : ∀ k x t : String, k ++ M ++ "->" ++ x ++ t = obsName k M x t := fun _ _ _ => rfl
  rw [pll_eq, hn, hn]
  have n1 : ∀ r ∈ pTab, r.kind = "BR(" → r.ll ≠ "e" ++ l ++ "," ++ l ++ "e" := by
    rcases h with rfl | rfl <;> decide +kernel
  have n2 : ∀ r ∈ pTab, r.kind = "BR(" → r.ll ≠ l ++ "e" ++ "," ++ "e" ++ l := by
    rcases h with rfl | rfl <;> decide +kernel
  exact ⟨lookup_none (suf := ")") hp pTab_kind hM (by simp) n1, lookup_none (suf := ")") hp pTab_kind hM (by simp) n2⟩

/-! ### `B_q → ℓ₁ ℓ₂` -/

/-- (Specification.) -/
def bRows (p : String × String) : List Row :=
  [⟨"BR(", p.1 ++ p.2, .br, p.1, p.2⟩, ⟨"BR(", p.2 ++ p.1, .br, p.2, p.1⟩,
   ⟨"BR(", p.1 ++ p.2 ++ "," ++ p.2 ++ p.1, .comb, p.1, p.2⟩]

theorem bll_step (Bs : List String) (s : St) (p : String × String) :
    (bllStep Bs s p).log = s.log ++ Bs.flatMap fun B => (bRows p).map (Row.act ")" B) := by
  unfold bllStep
  refine fold_log _ _ ?_ Bs s
  intro s B
  simp [St.reg, bRows, Row.act, Row.pred, List.append_assoc]

theorem bll_log (Bs : List String) (ps : List (String × String)) (s : St) :
    (ps.foldl (bllStep Bs) s).log = s.log ++ ps.flatMap fun p => Bs.flatMap fun B => (bRows p).map (Row.act ")" B) := by
  induction ps generalizing s with
  | nil => simp
  | cons p ps ih => rw [List.foldl_cons, ih, bll_step]; simp [List.append_assoc]

/-- (Specification.) -/
def bTab : List Row := pairs.flatMap bRows
theorem bTab_kind : ∀ r ∈ bTab, r.kind ∈ ["BR(", "R("] := by decide +kernel
theorem bTab_fun : ∀ r ∈ bTab, ∀ r' ∈ bTab, r.kind = r'.kind → r.ll = r'.ll → r = r' := by decide +kernel

theorem bll_lookup {ms : List String} (hp : Plain ms) {M : String} (hM : M ∈ ms) {r : Row} (hr : r ∈ bTab) :
    Dict.get? (bll ms) (obsName r.kind M r.ll ")") = some (r.pred M) := by
  unfold bll
  rw [bll_log]
  refine get?_ofPairs _ _ _ ?_ ?_
  · obtain ⟨p, hpp, hr⟩ := List.mem_flatMap.1 hr
    exact List.mem_append_right _ (List.mem_flatMap.2 ⟨p, hpp, List.mem_flatMap.2 ⟨M, hM, List.mem_map.2 ⟨r, hr, rfl⟩⟩⟩)
  · intro e he hn
    rcases List.mem_append.1 he with he | he
    · exact absurd he (by simp [St.init])
    obtain ⟨p, hpp, he⟩ := List.mem_flatMap.1 he
    obtain ⟨M', hM', he⟩ := List.mem_flatMap.1 he
    obtain ⟨r', hr', rfl⟩ := List.mem_map.1 he
    have hr'' : r' ∈ bTab := List.mem_flatMap.2 ⟨p, hpp, hr'⟩
    obtain ⟨h1, h2, h3⟩ := name_inj (bTab_kind r' hr'') (bTab_kind r hr) (hp M' hM') (hp M hM) hn
    subst h2
    rw [bTab_fun r' hr'' r hr h1 h3]
    rfl

/-- **C161.** `B_q → ℓ₁ ℓ₂`: for every meson, both charge combinations and their sum. -/
theorem C161_bll (br : String → String → String → ℝ) (bree : String → ℝ) (ms : List String)
    (hp : Plain ms) (M : String) (hM : M ∈ ms) (l1 l2 : String)
    (h : (l1, l2) = ("e", "mu") ∨ (l1, l2) = ("e", "tau") ∨ (l1, l2) = ("mu", "tau")) :
    Predicts br bree (bll ms) ("BR(" ++ M ++ "->" ++ (l1 ++ l2) ++ ")") (br M l1 l2) ∧
    Predicts br bree (bll ms) ("BR(" ++ M ++ "->" ++ (l2 ++ l1) ++ ")") (br M l2 l1) ∧
    Predicts br bree (bll ms) ("BR(" ++ M ++ "->" ++ (l1 ++ l2 ++ "," ++ l2 ++ l1) ++ ")") (br M l1 l2 + br M l2 l1) := by
  have hn : ∀ k x t : String, k ++ M ++ "->" ++ x ++ t = obsName k M x t := fun _ _ _ => rfl
  rw [hn, hn, hn]
  have hm : (l1, l2) ∈ pairs := by simpa [pairs] using h
  have m : ∀ r ∈ bRows (l1, l2), r ∈ bTab := fun r hr => List.mem_flatMap.2 ⟨_, hm, hr⟩
  have k1 := bll_lookup hp hM (m ⟨"BR(", l1 ++ l2, .br, l1, l2⟩ (by simp [bRows]))
  have k2 := bll_lookup hp hM (m ⟨"BR(", l2 ++ l1, .br, l2, l1⟩ (by simp [bRows]))
  have k3 := bll_lookup hp hM (m ⟨"BR(", l1 ++ l2 ++ "," ++ l2 ++ l1, .comb, l1, l2⟩ (by simp [bRows]))
  exact ⟨⟨_, k1, rfl⟩, ⟨_, k2, rfl⟩, ⟨_, k3, rfl⟩⟩

/-- Non-vacuity: the tables of the code satisfy the hypothesis. -/
theorem C161_nonvacuous : Plain vMesons ∧ Plain pMesons ∧ Plain sMesons ∧ Plain bMesons := by
  refine ⟨?_, ?_, ?_, ?_⟩ <;> (unfold Plain; decide +kernel)

/-- **C161 (why only partial).** With the tables of the code: `BR(eta_c(1S)->emu,mue)` does not exist although
`BR(J/psi->emu,mue)` does. -/
theorem C161_example : Dict.get? (pll pMesons) "BR(eta_c(1S)->emu,mue)" = none ∧
    Dict.get? (vll false vMesons) "BR(J/psi->emu,mue)" = some (.comb "J/psi" "e" "mu") := by
  constructor <;> decide +kernel

end Verif.Registration
