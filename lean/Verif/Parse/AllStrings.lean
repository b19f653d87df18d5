import Verif.Parse.Limits
/-!
# C24: what `constraints_from_string` returns on an arbitrary string
-/
set_option linter.unusedSimpArgs false
set_option linter.unusedVariables false
set_option linter.unusedTactic false
namespace Verif.Parse
open Verif.Py Verif.Py.Re

/-- Fails with `ValueError` only. (Specification.) -/
def VE {α : Type} (x : Except PyErr α) : Prop := ∀ e, x = .error e → e = .valueError

theorem VE.ok {α : Type} (a : α) : VE (Except.ok a : Except PyErr α) := by intro e h; cases h
theorem VE.ve {α : Type} : VE (Except.error .valueError : Except PyErr α) := by
  intro e h; injection h with h; exact h.symm
theorem VE.bind {α β : Type} {x : Except PyErr α} {f : α → Except PyErr β} (hx : VE x) (hf : ∀ a, VE (f a)) :
    VE (x >>= f) := by
  cases x with
  | ok a => exact hf a
  | error e => intro e' h; change Except.error e = _ at h; injection h with h; subst h; exact hx _ rfl
theorem VE.mapM {α β : Type} {f : α → Except PyErr β} (hf : ∀ a, VE (f a)) (l : List α) : VE (l.mapM f) := by
  induction l with
  | nil => exact VE.ok _
  | cons a l ih =>
    rw [List.mapM_cons]
    exact VE.bind (hf a) fun b => VE.bind ih fun _ => VE.ok _

theorem ve_expVal (s : List Char) : VE (expVal s) := by
  cases s with
  | nil => exact VE.ok _
  | cons c s =>
    simp only [expVal]
    split
    · split
      · exact VE.ok _
      · exact VE.ve
    · exact VE.ve
theorem ve_decVal (s : List Char) : VE (decVal s) := by
  unfold decVal
  simp only
  split
  · exact VE.ve
  · exact VE.bind (ve_expVal _) fun _ => VE.ok _
theorem ve_pyFloat (s : List Char) : VE (pyFloat s) := by
  unfold pyFloat
  split
  · exact VE.ve
  · simp only
    split
    · exact VE.ok _
    · split
      · exact VE.ok _
      · exact VE.bind (ve_decVal _) fun _ => VE.ok _
theorem ve_floatFin (s : List Char) : VE (floatFin s) := by
  unfold floatFin
  refine VE.bind (ve_pyFloat _) fun a => ?_
  cases a <;> first | exact VE.ok _ | exact VE.ve
theorem ve_pow10 (s : List Char) : VE (pow10 s) := VE.bind (ve_floatFin _) fun _ => VE.ok _
theorem ve_factor (c : Caps) (n : Nat) : VE (overallFactor c n) := by
  unfold overallFactor
  split
  · exact VE.ok _
  · exact ve_pow10 _
theorem ve_floatExp (c : Caps) (a b : Nat) : VE (floatExp c a b) := by
  unfold floatExp
  split <;> exact ve_floatFin _
theorem ve_errors (s : List Char) : VE (errorsFromString s) := by
  unfold errorsFromString
  split
  · exact VE.ve
  · refine VE.bind (ve_factor _ _) fun _ => VE.bind (ve_floatFin _) fun _ => ?_
    simp only
    split
    · exact VE.bind (VE.mapM (fun g => VE.bind (ve_floatFin _) fun _ => VE.ok _) _) fun _ => VE.ok _
    · split
      · exact VE.bind (VE.mapM (fun g => VE.bind (ve_floatFin _) fun _ => VE.ok _) _) fun _ =>
          VE.bind (VE.mapM (fun g => VE.bind (ve_floatFin _) fun _ => VE.bind (ve_floatFin _) fun _ =>
            VE.ok _) _) fun _ => VE.ok _
      · exact VE.ok _
theorem ve_mk (x : PD) (p : Prop) [Decidable p] {y : Except PyErr PD} (hy : VE y) :
    VE (if p then .error .valueError else y) := by
  split
  · exact VE.ve
  · exact hy
theorem ve_dists (e : Errors) : VE (distsOfErrors e) := by
  unfold distsOfErrors
  refine VE.bind (VE.mapM (fun a => ?_) _) fun _ => VE.bind (VE.mapM (fun a => ?_) _) fun _ => VE.ok _
  · unfold mkNormal; split <;> first | exact VE.ok _ | exact VE.ve
  · unfold mkAsym; split <;> first | exact VE.ok _ | exact VE.ve

theorem forall₂_mem_right {α β : Type} {R : α → β → Prop} {l : List α} {r : List β}
    (h : List.Forall₂ R l r) {b : β} (hb : b ∈ r) : ∃ a ∈ l, R a b := by
  induction h with
  | nil => simp at hb
  | cons h _ ih =>
    rcases List.mem_cons.1 hb with rfl | hb
    · exact ⟨_, by simp, h⟩
    · obtain ⟨a, ha, h'⟩ := ih hb; exact ⟨a, by simp [ha], h'⟩

theorem bind_ok {α β : Type} {x : Except PyErr α} {f : α → Except PyErr β} {b : β}
    (h : (x >>= f) = .ok b) : ∃ a, x = .ok a ∧ f a = .ok b := by
  cases x with
  | ok a => exact ⟨a, rfl, h⟩
  | error e => cases h

theorem dists_spec {e : Errors} {l : List PD} (h : distsOfErrors e = .ok l) :
    (∀ d ∈ l, d.centralValue = .fin e.central) ∧ l.length = e.sym.length + e.asym.length := by
  unfold distsOfErrors at h
  obtain ⟨a, ha, h⟩ := bind_ok h
  obtain ⟨b, hb, h⟩ := bind_ok h
  injection h with h
  subst h
  have fa := (mapM_ok_iff _ _ _).1 ha
  have fb := (mapM_ok_iff _ _ _).1 hb
  refine ⟨?_, by rw [List.length_append, fa.length_eq, fb.length_eq]⟩
  intro d hd
  rcases List.mem_append.1 hd with hd | hd
  · obtain ⟨x, -, hx⟩ := forall₂_mem_right fa hd
    unfold mkNormal at hx
    split at hx
    · cases hx
    · injection hx with hx; subst hx; rfl
  · obtain ⟨x, -, hx⟩ := forall₂_mem_right fb hd
    unfold mkAsym at hx
    split at hx
    · cases hx
    · injection hx with hx; subst hx; rfl

/-- **C24 (partial)** For every string: any failure is a `ValueError`; a returned list has a single
central value, and it is empty only if the string is in plus-minus notation with no recognised error;
a returned dictionary only comes from a number written with a Unicode minus.
Missing for the full claim ("always a non-empty list"): it is false, see `C24_empty_list` and
`C24_dict_returned`. Floating-point overflow of `10**x` is not modelled. -/
theorem C24_all_strings_partial (s : List Char) :
    (∀ e, constraintsFromString s = .error e → e = .valueError) ∧
    (∀ l, constraintsFromString s = .ok (.list l) →
      (∀ d ∈ l, ∀ d' ∈ l, d.centralValue = d'.centralValue) ∧
      (l = [] → ∃ c, errorsFromString (replaceDash s) = .ok ⟨c, [], []⟩)) ∧
    (∀ x, constraintsFromString s = .ok (.dict x) →
      '−' ∈ s ∧ raises (pyFloat s) ∧ pyFloat (replaceDash s) = .ok x) := by
  unfold constraintsFromString
  cases h1 : pyFloat s with
  | ok x => exact ⟨VE.ok _, by intro l h; injection h with h; injection h with h; subst h; simp, by
      intro y h; cases h⟩
  | error e1 =>
    simp only
    cases h2 : pyFloat (replaceDash s) with
    | ok x =>
      refine ⟨VE.ok _, (by intro l h; cases h), ?_⟩
      intro y h
      injection h with h; injection h with h; subst h
      refine ⟨?_, ⟨_, rfl⟩, rfl⟩
      by_contra hd
      rw [replaceDash_id hd, h1] at h2
      cases h2
    | error e2 =>
      simp only
      have single : ∀ {α : Type} (x : Except PyErr α) (f : α → Except PyErr PD), VE x → (∀ a, VE (f a)) →
          (∀ e, (do let r ← x; let d ← f r; Except.ok (Ret.list [d])) = .error e → e = .valueError) ∧
          (∀ l, (do let r ← x; let d ← f r; Except.ok (Ret.list [d])) = Except.ok (.list l) →
            (∀ d ∈ l, ∀ d' ∈ l, d.centralValue = d'.centralValue) ∧
            (l = [] → ∃ c, errorsFromString (replaceDash s) = .ok ⟨c, [], []⟩)) ∧
          (∀ x_1, (do let r ← x; let d ← f r; Except.ok (Ret.list [d])) = Except.ok (.dict x_1) →
            '−' ∈ s ∧ raises (Except.error e1 : Except PyErr PyNum) ∧
              (Except.error e2 : Except PyErr PyNum) = .ok x_1) := by
        intro α x f hx hf
        refine ⟨VE.bind hx fun _ => VE.bind (hf _) fun _ => VE.ok _, ?_, ?_⟩
        · intro l h
          obtain ⟨r, -, h⟩ := bind_ok h
          obtain ⟨d, -, h⟩ := bind_ok h
          injection h with h; injection h with h; subst h; simp
        · intro y h
          obtain ⟨r, -, h⟩ := bind_ok h
          obtain ⟨d, -, h⟩ := bind_ok h
          cases h
      split
      · apply single
        · unfold limitFromString
          split
          · exact VE.ve
          · exact VE.bind (ve_floatExp _ _ _) fun _ => VE.bind (ve_floatFin _) fun _ => VE.ok _
        · intro a; unfold mkUpperLimit; repeat' split
          all_goals first | exact VE.ve | exact VE.ok _
      · split
        · have hr : VE (rangeFromString (replaceDash s)) := by
            unfold rangeFromString
            split
            · exact VE.ve
            · refine VE.bind (ve_floatExp _ _ _) fun _ => VE.bind (ve_floatExp _ _ _) fun _ => ?_
              split
              · exact VE.ve
              · exact VE.bind (ve_factor _ _) fun _ => VE.ok _
          exact single (rangeFromString (replaceDash s)) (fun r => .ok (.uniform r.1 r.2)) hr
            fun _ => VE.ok _
        · split
          · apply single
            · unfold lognormalFromString
              split
              · exact VE.ve
              · exact VE.bind (ve_floatExp _ _ _) fun _ => VE.bind (ve_floatFin _) fun _ => VE.ok _
            · intro a; unfold mkLogNormal; repeat' split
              all_goals first | exact VE.ve | exact VE.ok _
          · split
            · refine ⟨VE.bind (ve_errors _) fun _ => VE.bind (ve_dists _) fun _ => VE.ok _, ?_, ?_⟩
              · intro l h
                obtain ⟨er, he, h⟩ := bind_ok h
                obtain ⟨l', hl, h⟩ := bind_ok h
                injection h with h; injection h with h; subst h
                obtain ⟨hc, hlen⟩ := dists_spec hl
                refine ⟨fun d hd d' hd' => by rw [hc d hd, hc d' hd'], ?_⟩
                rintro rfl
                obtain ⟨c, sy, asy⟩ := er
                simp at hlen
                have e1 : sy = [] := List.length_eq_zero_iff.1 (by omega)
                have e2 : asy = [] := List.length_eq_zero_iff.1 (by omega)
                exact ⟨c, by rw [he, e1, e2]⟩
              · intro y h
                obtain ⟨er, he, h⟩ := bind_ok h
                obtain ⟨l', hl, h⟩ := bind_ok h
                cases h
            · exact ⟨VE.ve, (by intro l h; cases h), (by intro x h; cases h)⟩

/-- **C24** is false as stated: an understood string can give an empty list of distributions (a number
followed by a minus error without a plus error) ... -/
theorem C24_empty_list : constraintsFromString "1.0 - 0.5".toList = .ok (.list []) := by
  decide +kernel

/-- ... and a negative number written with a Unicode minus gives a dictionary instead of a list. -/
theorem C24_dict_returned : constraintsFromString "−1".toList = .ok (.dict (.fin (-1))) := by
  decide +kernel

/-- A recognised error can be dropped silently: the `+ 0.2` without a minus error. -/
theorem C24_error_dropped :
    constraintsFromString "1.0 ± 0.1 + 0.2".toList = .ok (.list [.normal 1 (1 / 10)]) := by
  decide +kernel

/-! ## `errors_from_constraints` -/

/-- Result of `errors_from_constraints`; `central` is `none` if no distribution was given (the key is
missing then). Used for /repo/flavio/_parse_errors.py:115-133. -/
structure ErrDict where
  central : Option PyNum
  sym : List ℚ
  asym : List (ℚ × ℚ)

/-- _parse_errors.py l.115-133 `errors_from_constraints`, for one-dimensional distributions (the
multivariate normal branch is not modelled; positions are ignored by the other branches).
Used for /repo/flavio/_parse_errors.py:115-133. -/
def errorsFromConstraints (l : List PD) : ErrDict :=
  l.foldl (fun er pd =>
    let er := { er with central := some pd.centralValue }
    match pd with
    | .normal _ sd => { er with sym := er.sym ++ [sd] }
    | .asymNormal _ r l => { er with asym := er.asym ++ [(r, l)] }
    | _ => er) ⟨none, [], []⟩

theorem errorsFrom_normals (c : ℚ) (l : List ℚ) (er : ErrDict) :
    (l.map (PD.normal c)).foldl (fun er pd =>
      let er := { er with central := some pd.centralValue }
      match pd with
      | .normal _ sd => { er with sym := er.sym ++ [sd] }
      | .asymNormal _ r l => { er with asym := er.asym ++ [(r, l)] }
      | _ => er) er = ⟨if l = [] then er.central else some (.fin c), er.sym ++ l, er.asym⟩ := by
  induction l generalizing er with
  | nil => simp
  | cons a l ih =>
    rw [List.map_cons, List.foldl_cons, ih]
    simp [PD.centralValue]

theorem errorsFrom_asyms (c : ℚ) (l : List (ℚ × ℚ)) (er : ErrDict) :
    (l.map fun e => PD.asymNormal c e.1 e.2).foldl (fun er pd =>
      let er := { er with central := some pd.centralValue }
      match pd with
      | .normal _ sd => { er with sym := er.sym ++ [sd] }
      | .asymNormal _ r l => { er with asym := er.asym ++ [(r, l)] }
      | _ => er) er = ⟨if l = [] then er.central else some (.fin c), er.sym, er.asym ++ l⟩ := by
  induction l generalizing er with
  | nil => simp
  | cons a l ih =>
    rw [List.map_cons, List.foldl_cons, ih]
    simp [PD.centralValue]

/-- **C70** `errors_from_constraints` undoes `constraints_from_string`: for every string in bracket or
plus-minus notation with positive errors it gives back the central value and the errors meant. -/
theorem C70_errors_round_trip :
    (∀ b : BracketStr, (∀ i ∈ b.items, 0 < b.err i) → ∃ l, constraintsFromString b.text = .ok (.list l) ∧
      errorsFromConstraints l = ⟨some (.fin b.central), b.items.map b.err, []⟩) ∧
    (∀ b : PMStr, (∀ e ∈ b.sym, 0 < e) → (∀ e ∈ b.asym, 0 < e.1 ∧ 0 < e.2) →
      ∃ l, constraintsFromString b.text = .ok (.list l) ∧
      errorsFromConstraints l = ⟨some (.fin b.central), b.sym, b.asym⟩) := by
  constructor
  · intro b h
    refine ⟨_, (C21_constraints_from_string b).1 h, ?_⟩
    have e : (b.items.map fun i => PD.normal b.central (b.err i)) =
        (b.items.map b.err).map (PD.normal b.central) := by simp [Function.comp_def]
    unfold errorsFromConstraints
    rw [e, errorsFrom_normals]
    simp [BracketStr.items]
  · intro b h1 h2
    refine ⟨_, C22_constraints_from_string b h1 h2, ?_⟩
    unfold errorsFromConstraints
    rw [List.foldl_append, errorsFrom_normals, errorsFrom_asyms]
    have hne : ¬ (b.sym = [] ∧ b.asym = []) := by
      rintro ⟨hs, ha⟩
      unfold PMStr.sym PMStr.asym PMStr.items at *
      cases hf : b.first <;> simp [hf] at hs ha
    by_cases ha : b.asym = []
    · have hs : b.sym ≠ [] := fun h => hne ⟨h, ha⟩
      simp [ha, hs]
    · simp [ha]

end Verif.Parse
