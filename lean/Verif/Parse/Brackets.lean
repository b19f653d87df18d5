import Verif.Parse.Float
/-!
# C21: bracket notation
-/
set_option linter.unusedSimpArgs false
set_option linter.unusedVariables false
set_option linter.unusedTactic false
namespace Verif.Parse
open Verif.Py Verif.Py.Re

/-- What precedes the errors: white space, optional opening bracket, the central value, white space.
(Specification.) -/
structure Start where
  w0 : List Char
  openP : Option (List Char)
  num : SNumeral
  w1 : List Char
  w0_ws : All isSpace w0
  open_ws : ∀ w, openP = some w → All isSpace w
  w1_ws : All isSpace w1

/-- The text of the start followed by `rest`. (Specification.) -/
def Start.text (s : Start) (rest : List Char) : List Char :=
  s.w0 ++ (starText '(' s.openP ++ (s.num.text ++ (s.w1 ++ rest)))

theorem snum_headNot (n : SNumeral) {p : Char → Bool} (hp : ∀ c, isDigit c = true → p c = false)
    (hm : p '-' = false) (rest : List Char) : HeadNot p (n.text ++ rest) := by
  unfold SNumeral.text
  cases n.neg
  · simpa using digit_headNot_text n.num hp rest
  · exact headNot_cons hm

/-- The regular expressions with the common beginning `^\s*\(?\s*(-?\d+\.?\d*)\s*`. -/
theorem Eats.start (s : Start) {a : Re} {l : List Re} {v rest : List Char} {c' : Caps}
    (h1 : HeadNot isSpace (v ++ rest)) (h2 : HeadNot isDigit (v ++ rest))
    (h3 : HeadNot (fun y => y == '.') (v ++ rest))
    (h : Eats (Re.seqs (a :: l)) v rest [(1, s.num.text)] c') :
    Eats (Re.seqs (Re.ws :: .opt (Re.lit '(') :: Re.ws :: .grp 1 Parse.snum :: Re.ws :: a :: l))
      (s.text v) rest [] c' := by
  unfold Start.text
  have hE : EndsNum s.num.num (s.w1 ++ (v ++ rest)) := EndsNum.ws s.w1_ws (EndsNum.of h2 h3)
  have h5 : Eats (Re.seqs (.grp 1 Parse.snum :: Re.ws :: a :: l)) (s.num.text ++ (s.w1 ++ v)) rest [] c' := by
    refine Eats.seqs (c1 := [(1, s.num.text)]) ?_ (Eats.seqs (Eats.ws s.w1_ws h1) h)
    have := Eats.grp (n := 1) (Eats.snum s.num (c := []) hE)
    simpa [Dict.set] using this
  have hsn : ∀ p : Char → Bool, (∀ c, isDigit c = true → p c = false) → p '-' = false →
      HeadNot p (s.num.text ++ (s.w1 ++ v) ++ rest) := by
    intro p hp hm
    rw [List.append_assoc]; exact snum_headNot _ hp hm _
  have hns : HeadNot isSpace (s.num.text ++ (s.w1 ++ v) ++ rest) :=
    hsn _ (fun c hc => isDigit_not_space hc) (by decide)
  have hnp : HeadNot (fun y => y == '(') (s.num.text ++ (s.w1 ++ v) ++ rest) :=
    hsn _ (digit_ne (by decide)) (by decide)
  refine Eats.seqs (Eats.ws s.w0_ws ?_) (Eats.optWs s.open_ws hnp hns h5)
  rw [List.append_assoc]
  exact starText_head _ _ (by decide) hns

/-- One bracketed error, with white space inside and after. (Specification.) -/
structure BItem where
  wa : List Char
  num : Numeral
  wb : List Char
  wc : List Char
  wa_ws : All isSpace wa
  wb_ws : All isSpace wb
  wc_ws : All isSpace wc
/-- (Specification.) -/
def BItem.text (b : BItem) : List Char := ['('] ++ (b.wa ++ (b.num.text ++ (b.wb ++ ([')'] ++ b.wc))))

theorem BItem.eats (b : BItem) {rest : List Char} {c : Caps} (hr : HeadNot isSpace rest) :
    Eats bracketItem b.text rest c c := by
  unfold BItem.text bracketItem
  refine Eats.seqs (Eats.lit '(' _ _) (Eats.seqs (Eats.ws b.wa_ws ?_) (Eats.seqs (Eats.num _ ?_)
    (Eats.seqs (Eats.ws b.wb_ws ?_) (Eats.seqs (Eats.lit ')' _ _) (Eats.one (Eats.ws b.wc_ws hr))))))
  · rw [List.append_assoc]
    exact digit_headNot_text _ (fun c hc => isDigit_not_space hc) _
  · rw [List.append_assoc]
    exact EndsNum.ws b.wb_ws (EndsNum.cons (by decide) (by decide))
  · exact headNot_cons (by decide)

theorem BItem.eatsErr (b : BItem) {rest : List Char} (hr : HeadNot isSpace rest) :
    Eats patBracketsErr b.text rest [] [(1, b.num.text)] := by
  unfold BItem.text patBracketsErr
  refine Eats.seqs (Eats.lit '(' _ _) (Eats.seqs (Eats.ws b.wa_ws ?_)
    (Eats.seqs (c1 := [(1, b.num.text)]) ?_
    (Eats.seqs (Eats.ws b.wb_ws ?_) (Eats.seqs (Eats.lit ')' _ _) (Eats.one (Eats.ws b.wc_ws hr))))))
  · rw [List.append_assoc]
    exact digit_headNot_text _ (fun c hc => isDigit_not_space hc) _
  · have := Eats.grp (n := 1) (Eats.num b.num (c := [])
      (rest := b.wb ++ ([')'] ++ b.wc) ++ rest) (by
        rw [List.append_assoc]
        exact EndsNum.ws b.wb_ws (EndsNum.cons (by decide) (by decide))))
    simpa [Dict.set] using this
  · exact headNot_cons (by decide)

theorem items_head (l : List BItem) {rest : List Char} {p : Char → Bool} (hp : p '(' = false)
    (hr : HeadNot p rest) : HeadNot p ((l.map BItem.text).flatten ++ rest) := by
  cases l with
  | nil => simpa using hr
  | cons b l => exact headNot_cons hp

/-- A constraint in bracket notation: `1.67(3)(5) * 1e-3` with arbitrary white space. (Specification.) -/
structure BracketStr where
  start : Start
  first : BItem
  more : List BItem
  tail : Tail
/-- (Specification.) -/
def BracketStr.items (b : BracketStr) : List BItem := b.first :: b.more
/-- (Specification.) -/
def BracketStr.errText (b : BracketStr) : List Char := (b.items.map BItem.text).flatten
/-- (Specification.) -/
def BracketStr.text (b : BracketStr) : List Char := b.start.text (b.errText ++ b.tail.text)

/-- The central value meant. (Specification.) -/
def BracketStr.central (b : BracketStr) : ℚ := b.start.num.value * powVal b.tail.pow
/-- The error meant by one bracket: in units of the last digit of the central value if it has no decimal
point, literally otherwise; times the overall power of ten. (Specification.) -/
def BracketStr.err (b : BracketStr) (i : BItem) : ℚ :=
  (if i.num.frac = none then i.num.value * b.start.num.num.unit else i.num.value) * powVal b.tail.pow

/-- Captures of the main pattern. (Specification.) -/
def mainCaps (cv es : List Char) (pow : Option Power) : Caps := powCaps 3 [(1, cv), (2, es)] pow

theorem mainCaps_get1 (cv es pow) : group (mainCaps cv es pow) 1 = cv := by
  cases pow <;> simp [mainCaps, powCaps, group, Dict.get?, Dict.set]
theorem mainCaps_get2 (cv es pow) : group (mainCaps cv es pow) 2 = es := by
  cases pow <;> simp [mainCaps, powCaps, group, Dict.get?, Dict.set]
theorem mainCaps_factor (cv es pow) : overallFactor (mainCaps cv es pow) 3 = .ok (powVal pow) :=
  overallFactor_pow 3 pow _ (by simp [Dict.get?])

theorem BracketStr.match (b : BracketStr) :
    pmatch patBrackets b.text = some ([], mainCaps b.start.num.text b.errText b.tail.pow) := by
  apply Eats.pmatch
  unfold patBrackets BracketStr.text
  have htail := b.tail.head (p := isSpace) (by decide) (by decide) (by decide) (by decide) (by decide)
  have hopen := b.tail.head (p := fun y => y == '(') (by decide) (by decide) (by decide) (by decide)
    (by decide)
  have hh : ∀ p : Char → Bool, p '(' = false → HeadNot p (b.errText ++ b.tail.text ++ []) :=
    fun p hp => headNot_cons hp
  refine Eats.start b.start (hh _ (by decide)) (hh _ (by decide)) (hh _ (by decide)) ?_
  refine Eats.seqs (c1 := [(1, b.start.num.text), (2, b.errText)]) ?_ (Eats.tail 3 b.tail _)
  have hplus : Eats (plus bracketItem) b.errText (b.tail.text ++ []) [(1, b.start.num.text)]
      [(1, b.start.num.text)] := by
    unfold BracketStr.errText BracketStr.items
    rw [List.map_cons]
    refine Eats.plusBlocks ?_ ?_ ?_
    · intro v hv
      rw [← List.map_cons, List.mem_map] at hv
      obtain ⟨i, -, rfl⟩ := hv
      simp [BItem.text]
    · intro pre v post e
      rw [← List.map_cons] at e
      obtain ⟨l1, l2, -, h1, h2⟩ := List.map_eq_append_iff.1 e
      obtain ⟨i, l3, rfl, rfl, rfl⟩ := List.map_eq_cons_iff.1 h2
      apply BItem.eats
      exact items_head _ (by decide) (by simpa using htail)
    · intro k
      unfold bracketItem
      rw [run_seqs_cons, run_lit_headNot (by simpa using hopen)]
  have := Eats.grp (n := 2) hplus
  simpa [Dict.set] using this

theorem findall_brackets (l : List BItem) :
    FindAll patBracketsErr (l.map BItem.text).flatten (l.map fun i => [(1, i.num.text)]) := by
  induction l with
  | nil => exact FindAll.nil rfl
  | cons b l ih =>
    rw [List.map_cons, List.flatten_cons, List.map_cons]
    refine FindAll.hit (by simp [BItem.text]) (Eats.pmatch_rest (b.eatsErr ?_)) ih
    have := items_head l (rest := []) (p := isSpace) (by decide) (headNot_nil _)
    simpa using this

theorem numberDecimal_snum (n : SNumeral) : numberDecimal n.text = n.num.fracDigits.length := by
  have hdot : ∀ c, isDigit c = true → (c != '.') = true := by
    intro c hc; simp; rintro rfl; revert hc; decide
  have hmin : ∀ l, All isDigit l → All (fun c => c != '.') ((if n.neg then ['-'] else []) ++ l) := by
    intro l hl
    refine All.append ?_ (hl.mono hdot)
    cases n.neg
    · exact All.nil
    · exact All.cons (by decide) All.nil
  unfold numberDecimal SNumeral.text Numeral.text Numeral.fracDigits
  cases hf : n.num.frac with
  | none =>
    have := dropWhile_run (rest := []) _ (hmin _ n.num.int_dig) (headNot_nil _)
    rw [List.append_nil] at this
    simp only [List.append_nil, this]
    simp
  | some f =>
    have := dropWhile_run (rest := '.' :: f) _ (hmin _ n.num.int_dig) (headNot_cons (by decide))
    rw [List.append_assoc] at this
    simp only [this]
    have h2 := takeWhile_run (rest := []) f ((n.num.frac_dig f hf).mono hdot) (headNot_nil _)
    rw [List.append_nil] at h2
    rw [h2]; simp

theorem isdigit_numeral (n : Numeral) : isdigit n.text = decide (n.frac = none) := by
  unfold isdigit Numeral.text
  cases hf : n.frac with
  | none =>
    have : n.int.all isDigit = true := List.all_eq_true.2 n.int_dig
    simp [n.int_ne, this]
  | some f =>
    have : isDigit '.' = false := by decide
    simp [this]

theorem bracketErr_item (factor : ℚ) (sn : SNumeral) (i : BItem) :
    bracketErr factor sn.num.fracDigits.length i.num.text =
      .ok ((if i.num.frac = none then i.num.value * sn.num.unit else i.num.value) * factor) := by
  have := i.num.float [] All.nil
  rw [List.nil_append] at this
  unfold bracketErr
  rw [this, isdigit_numeral]
  show Except.ok _ = _
  congr 1
  by_cases h : i.num.frac = none
  · simp [h, Numeral.unit, zpow_neg]
  · simp [h]

theorem mapM_eq {α β γ : Type} (l : List α) (g : α → γ) (f : γ → Except PyErr β) (h : α → β)
    (hf : ∀ a ∈ l, f (g a) = .ok (h a)) : (l.map g).mapM f = .ok (l.map h) := by
  rw [mapM_ok_iff]
  induction l with
  | nil => exact .nil
  | cons a l ih =>
    exact .cons (hf a (by simp)) (ih fun x hx => hf x (by simp [hx]))

/-- **C21** Every string in bracket notation parses to the central value and the errors meant:
`errors_from_string` returns exactly the value of the number times the power of ten, and one symmetric
error per bracket, integer errors counted in units of the last digit. -/
theorem C21_errors_from_string (b : BracketStr) :
    errorsFromString b.text = .ok ⟨b.central, b.items.map b.err, []⟩ := by
  unfold errorsFromString
  rw [b.match]
  have hes : (pmatch patBracketsErr b.errText).isSome = true := by
    have : pmatch patBracketsErr b.errText = some ((b.more.map BItem.text).flatten,
        [(1, b.first.num.text)]) := by
      unfold BracketStr.errText BracketStr.items
      rw [List.map_cons, List.flatten_cons]
      refine Eats.pmatch_rest (b.first.eatsErr ?_)
      simpa using items_head b.more (rest := []) (p := isSpace) (by decide) (headNot_nil _)
    rw [this]; rfl
  have hfa : findall patBracketsErr b.errText = b.items.map fun i => [(1, i.num.text)] :=
    (findall_brackets b.items).findall
  simp only [Option.some_or, mainCaps_factor, mainCaps_get1, mainCaps_get2]
  have hm := mapM_eq b.items (fun i => [(1, i.num.text)])
    (fun g => bracketErr (powVal b.tail.pow) b.start.num.num.fracDigits.length (group g 1)) b.err
    (fun i _ => bracketErr_item _ b.start.num i)
  simp only [SNumeral.float, numberDecimal_snum, hes, if_true, hfa, hm, bind, Except.bind]
  rfl

theorem start_chars (s : Start) (rest : List Char) {x : Char} (hx : x ∈ s.text rest) :
    isSpace x = true ∨ x = '(' ∨ isNumChar x = true ∨ x ∈ rest := by
  have hsn : All isNumChar s.num.text := by
    unfold SNumeral.text
    refine All.append ?_ s.num.num.text_numChar
    cases s.num.neg
    · exact All.nil
    · exact All.cons (by decide) All.nil
  unfold Start.text at hx
  simp only [List.mem_append] at hx
  rcases hx with h | h | h | h | h
  · exact Or.inl (s.w0_ws x h)
  · cases ho : s.openP with
    | none => rw [ho] at h; simp [starText] at h
    | some w =>
      rw [ho] at h
      simp only [starText, List.mem_cons] at h
      rcases h with rfl | h
      · exact Or.inr (Or.inl rfl)
      · exact Or.inl (s.open_ws w ho x h)
  · exact Or.inr (Or.inr (Or.inl (hsn x h)))
  · exact Or.inl (s.w1_ws x h)
  · exact Or.inr (Or.inr (Or.inr h))

/-- Characters that can occur in a tail. (Specification.) -/
def tailChar (x : Char) : Prop :=
  isSpace x = true ∨ isNumChar x = true ∨ x = ')' ∨ x = '*' ∨ x = '(' ∨ x = '^'

theorem tail_chars (t : Tail) {x : Char} (hx : x ∈ t.text) : tailChar x := by
  unfold Tail.text at hx
  simp only [List.mem_append] at hx
  rcases hx with h | h | h
  · cases ho : t.close with
    | none => rw [ho] at h; simp [starText] at h
    | some w =>
      rw [ho] at h
      simp only [starText, List.mem_cons] at h
      rcases h with rfl | h
      · simp [tailChar]
      · exact Or.inl (t.close_ws w ho x h)
  · cases ho : t.star with
    | none => rw [ho] at h; simp [starText] at h
    | some w =>
      rw [ho] at h
      simp only [starText, List.mem_cons] at h
      rcases h with rfl | h
      · simp [tailChar]
      · exact Or.inl (t.star_ws w ho x h)
  · cases ho : t.pow with
    | none => rw [ho] at h; simp [powText] at h
    | some p =>
      rw [ho] at h
      simp only [powText, Power.text, List.mem_append] at h
      rcases h with h | h | h | h
      · cases hp : p.form <;> simp [hp, PowForm.text] at h <;>
          (try rcases h with rfl | rfl | rfl) <;> (try rcases h with rfl | rfl) <;> (try subst h) <;>
          first | (right; left; decide) | simp [tailChar]
      · revert h; cases p.openP <;> simp [tailChar]; rintro rfl; simp
      · exact Or.inr (Or.inl (p.expo.text_numChar x h))
      · revert h; cases p.closeP <;> simp [tailChar]; rintro rfl; simp

theorem bitem_chars (b : BItem) {x : Char} (hx : x ∈ b.text) : tailChar x := by
  unfold BItem.text at hx
  simp only [List.mem_append, List.mem_singleton] at hx
  rcases hx with rfl | h | h | h | rfl | h
  · simp [tailChar]
  · exact Or.inl (b.wa_ws x h)
  · exact Or.inr (Or.inl (b.num.text_numChar x h))
  · exact Or.inl (b.wb_ws x h)
  · simp [tailChar]
  · exact Or.inl (b.wc_ws x h)

theorem bracket_chars (b : BracketStr) {x : Char} (hx : x ∈ b.text) : tailChar x := by
  rcases start_chars _ _ hx with h | h | h | h
  · exact Or.inl h
  · simp [tailChar, h]
  · exact Or.inr (Or.inl h)
  · rcases List.mem_append.1 h with h | h
    · unfold BracketStr.errText at h
      rw [List.mem_flatten] at h
      obtain ⟨u, hu, hx⟩ := h
      obtain ⟨i, -, rfl⟩ := List.mem_map.1 hu
      exact bitem_chars i hx
    · exact tail_chars _ h

theorem tailChar_not {x y : Char} (h : tailChar x) (h1 : isSpace y = false) (h2 : isNumChar y = false)
    (h3 : y ≠ ')') (h4 : y ≠ '*') (h5 : y ≠ '(') (h6 : y ≠ '^') : x ≠ y := by
  rintro rfl
  rcases h with h | h | h | h | h | h
  · rw [h] at h1; cases h1
  · rw [h] at h2; cases h2
  all_goals contradiction

theorem replaceDash_id {s : List Char} (h : '−' ∉ s) : replaceDash s = s := by
  unfold replaceDash
  conv_rhs => rw [← List.map_id s]
  apply List.map_congr_left
  intro a ha
  rw [if_neg (by rintro rfl; exact h ha)]; rfl

theorem needs_upperlimit : Needs (fun x => x = '<') patUpperlimit :=
  needs_seq_right (needs_seq_left (needs_lit '<'))
theorem needs_range : Needs (fun x => x = '[') patRange :=
  needs_seq_right (needs_seq_left (needs_lit '['))
theorem needs_timesby : Needs (fun x => x = '/') patTimesby := by
  refine needs_seq_right (needs_seq_right (needs_seq_right (needs_seq_right (needs_seq_left ?_))))
  rintro u (h | h)
  · exact needs_seq_right (needs_lit '/') u h
  · exact needs_seq_left (needs_lit '/') u h

/-- The common part of `constraints_from_string` for strings that are not numbers, limits, ranges or
log-normals. -/
theorem constraints_of_errors {s : List Char} (hf : raises (pyFloat s)) (hd : '−' ∉ s) (h1 : '<' ∉ s)
    (h2 : '[' ∉ s) (h3 : '/' ∉ s)
    (hm : ((pmatch patBrackets s).isSome || (pmatch patPlusminus s).isSome) = true) :
    constraintsFromString s = (do
      let e ← errorsFromString s
      let l ← distsOfErrors e
      .ok (.list l)) := by
  obtain ⟨e, he⟩ := hf
  have n1 := pmatch_none_of_needs needs_upperlimit (s := s) (fun x hx => by rintro rfl; exact h1 hx)
  have n2 := pmatch_none_of_needs needs_range (s := s) (fun x hx => by rintro rfl; exact h2 hx)
  have n3 := pmatch_none_of_needs needs_timesby (s := s) (fun x hx => by rintro rfl; exact h3 hx)
  unfold constraintsFromString
  simp only [he, replaceDash_id hd, n1, n2, n3, hm, Option.isSome_none, if_true]
  rfl

/-- **C21** `constraints_from_string` on bracket notation gives the normal distributions meant, in the
order written, if all errors are positive, and raises `ValueError` if one of them is zero. -/
theorem C21_constraints_from_string (b : BracketStr) :
    ((∀ i ∈ b.items, 0 < b.err i) →
      constraintsFromString b.text = .ok (.list (b.items.map fun i => .normal b.central (b.err i)))) ∧
    ((∃ i ∈ b.items, b.err i ≤ 0) → constraintsFromString b.text = .error .valueError) := by
  have hc := fun (y : Char) h1 h2 h3 h4 h5 h6 (h : y ∈ b.text) =>
    tailChar_not (y := y) (bracket_chars b h) h1 h2 h3 h4 h5 h6 rfl
  have hpar : '(' ∈ b.text := by
    unfold BracketStr.text Start.text BracketStr.errText BracketStr.items BItem.text
    simp
  have key := constraints_of_errors (s := b.text) (pyFloat_bad (c := '(') (by decide) hpar)
    (hc _ (by decide) (by decide) (by decide) (by decide) (by decide) (by decide))
    (hc _ (by decide) (by decide) (by decide) (by decide) (by decide) (by decide))
    (hc _ (by decide) (by decide) (by decide) (by decide) (by decide) (by decide))
    (hc _ (by decide) (by decide) (by decide) (by decide) (by decide) (by decide))
    (by rw [b.match]; rfl)
  rw [key, C21_errors_from_string]
  constructor
  · intro hpos
    have hm : (b.items.map b.err).mapM (mkNormal b.central) =
        .ok (b.items.map fun i => PD.normal b.central (b.err i)) := by
      apply mapM_eq
      intro i hi
      simp [mkNormal, not_le.2 (hpos i hi)]
    simp only [distsOfErrors, hm, bind, Except.bind, List.mapM_nil, pure, Except.pure]
    simp
  · rintro ⟨i, hi, hle⟩
    have hm : raises ((b.items.map b.err).mapM (mkNormal b.central)) :=
      mapM_raises _ _ (a := b.err i) (List.mem_map_of_mem hi) ⟨_, by simp [mkNormal, hle]; rfl⟩
    have hv : ∀ (l : List ℚ) e, l.mapM (mkNormal b.central) = .error e → e = .valueError := by
      intro l
      induction l with
      | nil => intro e h; cases h
      | cons a l ih =>
        intro e h
        rw [List.mapM_cons] at h
        unfold mkNormal at h
        split at h
        · injection h with h; exact h.symm
        · cases hl : l.mapM (mkNormal b.central) with
          | error e' =>
            have := ih e' hl
            subst this
            change (do let rs ← List.mapM (mkNormal b.central) l; pure (_ :: rs)) = _ at h
            rw [hl] at h; injection h with h; exact h.symm
          | ok r =>
            change (do let rs ← List.mapM (mkNormal b.central) l; pure (_ :: rs)) = _ at h
            rw [hl] at h; cases h
    obtain ⟨e, he⟩ := hm
    have := hv _ _ he
    subst this
    simp only [distsOfErrors, he, bind, Except.bind]

/-- Concrete instance: `1.67(3)(0.5) * 1e-3`. -/
def exBracket : BracketStr where
  start := ⟨[], none, ⟨false, ⟨['1'], some ['6', '7'], by simp, by unfold All; decide,
    by intro f h; injection h with h; subst h; unfold All; decide⟩⟩, [], All.nil, by simp, All.nil⟩
  first := ⟨[], ⟨['3'], none, by simp, by unfold All; decide, by simp⟩, [], [], All.nil, All.nil, All.nil⟩
  more := [⟨[], ⟨['0'], some ['5'], by simp, by unfold All; decide,
    by intro f h; injection h with h; subst h; unfold All; decide⟩, [], [' '], All.nil, All.nil,
    by unfold All; decide⟩]
  tail := ⟨none, some [' '], some ⟨.oneE, false, ⟨.minus, ['3'], by simp, by unfold All; decide⟩, false⟩,
    by simp, by intro w h; injection h with h; subst h; unfold All; decide⟩

example : exBracket.text = "1.67(3)(0.5) * 1e-3".toList := by decide
example : exBracket.central = 167 / 100000 ∧
    exBracket.items.map exBracket.err = [3 / 100000, 5 / 10000] := by
  simp [exBracket, BracketStr.central, BracketStr.items, BracketStr.err, powVal, Expo.value, Sign.ival,
    SNumeral.value, Numeral.value, Numeral.unit, Numeral.fracDigits, natVal, digitVal]
  norm_num [zpow_neg]

end Verif.Parse
