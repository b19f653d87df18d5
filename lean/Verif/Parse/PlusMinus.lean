import Verif.Parse.Brackets
/-!
# C22: plus-minus notation
-/
set_option linter.unusedSimpArgs false
set_option linter.unusedVariables false
set_option linter.unusedTactic false
namespace Verif.Parse
open Verif.Py Verif.Py.Re

/-! ## The bracket pattern does not match -/

theorem lang_starChr {p : Char → Bool} {u : List Char} (h : Lang (.star (.chr p)) u) : All p u := by
  obtain ⟨l, rfl, hl⟩ := h
  intro c hc
  rw [List.mem_flatten] at hc
  obtain ⟨v, hv, hc⟩ := hc
  obtain ⟨x, hx, rfl⟩ := hl v hv
  simp at hc; subst hc; exact hx

theorem lang_optLit {x : Char} {u : List Char} (h : Lang (.opt (lit x)) u) : ∀ c ∈ u, c = x := by
  rcases h with ⟨y, hy, rfl⟩ | rfl
  · intro c hc; simp at hc hy; rw [hc, hy]
  · simp

theorem lang_num {u : List Char} (h : Lang num u) :
    (∃ c ∈ u, isDigit c = true) ∧ ∀ c ∈ u, isDigit c = true ∨ c = '.' := by
  obtain ⟨v, w, rfl, ⟨v1, v2, rfl, ⟨x, hx, rfl⟩, hv2⟩, ⟨w1, w2, rfl, hw1, hw2⟩⟩ := h
  refine ⟨⟨x, by simp, hx⟩, ?_⟩
  intro c hc
  simp only [List.mem_append, List.mem_singleton] at hc
  rcases hc with (rfl | hc) | hc | hc
  · exact Or.inl hx
  · exact Or.inl (lang_starChr hv2 c hc)
  · exact Or.inr (lang_optLit hw1 c hc)
  · exact Or.inl (lang_starChr hw2 c hc)

/-- Characters before the first bracket of an error. (Specification.) -/
def preChar (c : Char) : Prop := isSpace c = true ∨ c = '(' ∨ c = '-' ∨ isDigit c = true ∨ c = '.'

theorem lang_patBrackets {u : List Char} (h : Lang patBrackets u) :
    ∃ P Q, u = P ++ '(' :: Q ∧ (∀ c ∈ P, preChar c) ∧ ∃ c ∈ P, isDigit c = true := by
  obtain ⟨a, _, rfl, ha, b, _, rfl, hb, c, _, rfl, hc, d, _, rfl, ⟨d1, d2, rfl, hd1, hd2⟩, e, _, rfl, he,
    f, g, rfl, ⟨f1, f2, rfl, ⟨f3, f4, rfl, ⟨y, hy, rfl⟩, -⟩, -⟩, -⟩ := h
  simp at hy; subst hy
  obtain ⟨⟨z, hz, hzd⟩, hnum⟩ := lang_num hd2
  refine ⟨a ++ (b ++ (c ++ (d1 ++ d2 ++ e))), f4 ++ f2 ++ g, by simp, ?_, z, by simp [hz], hzd⟩
  intro x hx
  simp only [List.mem_append] at hx
  rcases hx with h | h | h | (h | h) | h
  · exact Or.inl (lang_starChr ha x h)
  · exact Or.inr (Or.inl (lang_optLit hb x h))
  · exact Or.inl (lang_starChr hc x h)
  · exact Or.inr (Or.inr (Or.inl (lang_optLit hd1 x h)))
  · rcases hnum x h with h | h
    · exact Or.inr (Or.inr (Or.inr (Or.inl h)))
    · exact Or.inr (Or.inr (Or.inr (Or.inr h)))
  · exact Or.inl (lang_starChr he x h)

theorem count_zero_of {c : Char} {l : List Char} {p : Char → Bool} (h : All p l) (hc : p c = false) :
    l.count c = 0 := by
  rw [List.count_eq_zero]; intro hm; rw [h c hm] at hc; cases hc

theorem snum_numChar (n : SNumeral) : All isNumChar n.text := by
  unfold SNumeral.text
  refine All.append ?_ n.num.text_numChar
  cases n.neg
  · exact All.nil
  · exact All.cons (by decide) All.nil

theorem brackets_none (s : Start) {x : Char} (hx : ¬ preChar x) (z : List Char) :
    pmatch patBrackets (s.text (x :: z)) = none := by
  cases hm : pmatch patBrackets (s.text (x :: z)) with
  | none => rfl
  | some r =>
    exfalso
    obtain ⟨u, s', c', hs, hu, -⟩ := run_sound _ _ _ _ _ hm
    obtain ⟨P, Q, rfl, hP, d, hd, hdd⟩ := lang_patBrackets hu
    -- the start text without the rest
    have hS : s.text (x :: z) = s.text [] ++ x :: z := by simp [Start.text]
    rw [hS] at hs
    have hs2 : s.text [] ++ x :: z = P ++ ('(' :: (Q ++ s')) := by rw [hs]; simp
    -- P is a proper prefix of the start text
    have : ∃ S', s.text [] = P ++ '(' :: S' := by
      rcases List.append_eq_append_iff.1 hs2 with ⟨t, h1, h2⟩ | ⟨t, h1, h2⟩
      · -- P = start ++ t
        cases t with
        | nil =>
          simp at h2
          exact absurd (Or.inr (Or.inl h2.1)) hx
        | cons y t =>
          simp at h2
          exact absurd (hP x (by rw [h1, h2.1]; simp)) hx
      · cases t with
        | nil =>
          simp at h2
          exact absurd (Or.inr (Or.inl h2.1.symm)) hx
        | cons y t =>
          simp at h2
          exact ⟨t, by rw [h1, h2.1]⟩
    obtain ⟨S', hS'⟩ := this
    have c1 : s.w0.count '(' = 0 := count_zero_of s.w0_ws (by decide)
    have c2 : s.w1.count '(' = 0 := count_zero_of s.w1_ws (by decide)
    have c3 : s.num.text.count '(' = 0 := count_zero_of (snum_numChar _) (by decide)
    have hcount : (s.text []).count '(' = P.count '(' + 1 + S'.count '(' := by
      rw [hS']; simp; omega
    cases ho : s.openP with
    | none =>
      simp [Start.text, ho, starText, c1, c2, c3] at hcount
      try omega
    | some w =>
      have c4 : w.count '(' = 0 := count_zero_of (s.open_ws w ho) (by decide)
      simp [Start.text, ho, starText, c1, c2, c3, c4] at hcount
      have hp0 : '(' ∉ P := by rw [← List.count_eq_zero]; omega
      have hw0 : '(' ∉ s.w0 := by rw [← List.count_eq_zero]; exact c1
      have t1 : (s.text []).takeWhile (fun c => c != '(') = P := by
        rw [hS']
        exact takeWhile_run P (fun c hc => by simp; rintro rfl; exact hp0 hc) (headNot_cons (by decide))
      have t2 : (s.text []).takeWhile (fun c => c != '(') = s.w0 := by
        unfold Start.text
        rw [ho]
        exact takeWhile_run s.w0 (fun c hc => by simp; rintro rfl; exact hw0 hc)
          (headNot_cons (by decide))
      rw [t1] at t2
      subst t2
      have := s.w0_ws d hd
      rw [isDigit_not_space hdd] at this; cases this

/-! ## Items -/

/-- Signs of a symmetric error: `±`, `\pm`, `+-`. (Specification.) -/
inductive Sep where | pm | latex | ascii
/-- (Specification.) -/
def Sep.text : Sep → List Char
  | .pm => ['±'] | .latex => ['\\', 'p', 'm'] | .ascii => ['+', '-']

/-- One error: symmetric (`± 0.1`) or asymmetric (`+ 0.2 - 0.1`), with white space. (Specification.) -/
inductive PItem where
  | sym (sep : Sep) (wa : List Char) (n : Numeral) (wb : List Char)
  | asym (wa : List Char) (n1 : Numeral) (wb wc : List Char) (n2 : Numeral) (wd : List Char)

/-- The white space is white space. (Specification.) -/
def PItem.OK : PItem → Prop
  | .sym _ wa _ wb => All isSpace wa ∧ All isSpace wb
  | .asym wa _ wb wc _ wd => All isSpace wa ∧ All isSpace wb ∧ All isSpace wc ∧ All isSpace wd

/-- (Specification.) -/
def PItem.text : PItem → List Char
  | .sym sep wa n wb => sep.text ++ (wa ++ (n.text ++ wb))
  | .asym wa n1 wb wc n2 wd => ['+'] ++ (wa ++ (n1.text ++ (wb ++ (['-'] ++ (wc ++ (n2.text ++ wd))))))
/-- White space at the end. (Specification.) -/
def PItem.trail : PItem → List Char
  | .sym _ _ _ wb => wb
  | .asym _ _ _ _ _ wd => wd

/-- The last error is not directly followed by a digit (needed when a power of ten starting with `1`
follows: it must be separated by white space, `*` or `)`). (Specification.) -/
def Ends : List PItem → List Char → Prop
  | [], _ => True
  | [i], t => HeadNot isDigit (i.trail ++ t)
  | _ :: j :: l, t => Ends (j :: l) t

theorem isPm_not_digit {c : Char} (h : isPm c = true) : isDigit c = false := by
  simp [isPm] at h
  rcases h with ((((rfl | rfl) | rfl) | rfl) | rfl) | rfl <;> decide

theorem Sep.allPm (s : Sep) : All isPm s.text := by cases s <;> unfold All <;> decide
theorem Sep.ne (s : Sep) : s.text ≠ [] := by cases s <;> simp [Sep.text]

/-- One repetition of the error group. -/
theorem pmItem_eats {sep wa wb : List Char} {n : Numeral} {rest : List Char} {c : Caps} (h1 : sep ≠ [])
    (h2 : All isPm sep) (ha : All isSpace wa) (hb : All isSpace wb) (hr : HeadNot isSpace rest)
    (he : EndsNum n (wb ++ rest)) : Eats pmItem (sep ++ (wa ++ (n.text ++ wb))) rest c c := by
  have hd : ∀ c, isDigit c = true → isPm c = false := by
    intro c hc
    cases hp : isPm c with
    | false => rfl
    | true => rw [isPm_not_digit hp] at hc; cases hc
  have hs : ∀ c, isSpace c = true → isPm c = false := by
    intro c hc
    cases hp : isPm c with
    | false => rfl
    | true =>
      simp [isPm] at hp
      rcases hp with ((((rfl | rfl) | rfl) | rfl) | rfl) | rfl <;> revert hc <;> decide
  refine Eats.seqs (Eats.plusChr h1 h2 ?_) (Eats.seqs (Eats.ws ha ?_) (Eats.seqs (Eats.num n he)
    (Eats.one (Eats.ws hb hr))))
  · rw [List.append_assoc, List.append_assoc]
    exact HeadNot.append (space_not ha hs) (digit_headNot_text _ hd _)
  · rw [List.append_assoc]
    exact digit_headNot_text _ (fun c hc => isDigit_not_space hc) _

/-- The repetitions of the error group an item consists of. (Specification.) -/
def PItem.blocks : PItem → List (List Char)
  | .sym sep wa n wb => [sep.text ++ (wa ++ (n.text ++ wb))]
  | .asym wa n1 wb wc n2 wd => [['+'] ++ (wa ++ (n1.text ++ wb)), ['-'] ++ (wc ++ (n2.text ++ wd))]

theorem PItem.blocks_flatten (i : PItem) : i.blocks.flatten = i.text := by
  cases i <;> simp [PItem.blocks, PItem.text]

theorem items_text (l : List PItem) : (l.flatMap PItem.blocks).flatten = (l.map PItem.text).flatten := by
  induction l with
  | nil => rfl
  | cons i l ih => simp [List.flatMap_cons, ih, PItem.blocks_flatten]

/-- Any class without the plus-minus characters misses the head of a list of items. -/
theorem pitems_head (l : List PItem) {rest : List Char} {p : Char → Bool} (h1 : p '+' = false)
    (h2 : p '±' = false) (h3 : p '\\' = false) (hr : HeadNot p rest) :
    HeadNot p ((l.map PItem.text).flatten ++ rest) := by
  cases l with
  | nil => simpa using hr
  | cons i l =>
    rw [List.map_cons, List.flatten_cons, List.append_assoc]
    cases i with
    | sym sep wa n wb => cases sep <;> (apply headNot_cons; assumption)
    | asym => exact headNot_cons h1

theorem not_digit_dot (c : Char) : (isDigit c = false) → (c == '.') = false → True := fun _ _ => trivial

theorem blocks_eats (l : List PItem) (hl : ∀ i ∈ l, i.OK) {rest : List Char} {c : Caps}
    (hrs : HeadNot isSpace rest) (hrdot : HeadNot (fun y => y == '.') rest) (he : Ends l rest) :
    ∀ pre u post, l.flatMap PItem.blocks = pre ++ u :: post →
      Eats pmItem u (post.flatten ++ rest) c c := by
  induction l with
  | nil => intro pre u post h; simp at h
  | cons i l ih =>
    have hi := hl i (by simp)
    have ihl : Ends l rest := by
      cases l with
      | nil => trivial
      | cons j l => exact he
    have ih' := ih (fun j hj => hl j (by simp [hj])) ihl
    -- facts on what follows item `i`
    have hs : HeadNot isSpace ((l.flatMap PItem.blocks).flatten ++ rest) := by
      rw [items_text]; exact pitems_head l (by decide) (by decide) (by decide) hrs
    have hend : ∀ n : Numeral, All isSpace i.trail →
        EndsNum n (i.trail ++ ((l.flatMap PItem.blocks).flatten ++ rest)) := by
      intro n hw
      cases l with
      | nil =>
        refine ⟨by simpa [Ends] using he, fun _ => ?_⟩
        exact HeadNot.append (space_not hw (space_ne (by decide))) (by simpa using hrdot)
      | cons j l =>
        refine EndsNum.ws hw ⟨?_, fun _ => ?_⟩ <;>
        · rw [items_text, List.map_cons, List.flatten_cons, List.append_assoc]
          cases j with
          | sym sep wa n wb => cases sep <;> exact headNot_cons (by decide)
          | asym => exact headNot_cons (by decide)
    intro pre u post h
    rw [List.flatMap_cons] at h
    cases i with
    | sym sep wa n wb =>
      simp only [PItem.blocks, List.singleton_append] at h
      cases pre with
      | nil =>
        injection h with h1 h2
        subst h1; subst h2
        exact pmItem_eats sep.ne sep.allPm hi.1 hi.2 hs (hend n hi.2)
      | cons a pre =>
        injection h with h1 h2
        exact ih' pre u post h2
    | asym wa n1 wb wc n2 wd =>
      obtain ⟨ha, hb, hc, hd⟩ := hi
      simp only [PItem.blocks, List.cons_append, List.nil_append] at h
      cases pre with
      | nil =>
        injection h with h1 h2
        subst h1; subst h2
        refine pmItem_eats (sep := ['+']) (by simp) (All.cons (by decide) All.nil) ha hb
          (headNot_cons (by decide)) (EndsNum.ws hb (EndsNum.cons (by decide) (by decide)))
      | cons a pre =>
        injection h with h1 h2
        cases pre with
        | nil =>
          injection h2 with h3 h4
          subst h3; subst h4
          exact pmItem_eats (sep := ['-']) (by simp) (All.cons (by decide) All.nil) hc hd hs (hend n2 hd)
        | cons a' pre =>
          injection h2 with h3 h4
          exact ih' pre u post h4

/-- A constraint in plus-minus notation: `(1.67 ± 0.3 + 0.1 - 0.2) * 1e-3`. (Specification.) -/
structure PMStr where
  start : Start
  first : PItem
  more : List PItem
  tail : Tail
  ok : ∀ i ∈ first :: more, i.OK
  ends : Ends (first :: more) tail.text
/-- (Specification.) -/
def PMStr.items (b : PMStr) : List PItem := b.first :: b.more
/-- (Specification.) -/
def PMStr.errText (b : PMStr) : List Char := (b.items.map PItem.text).flatten
/-- (Specification.) -/
def PMStr.text (b : PMStr) : List Char := b.start.text (b.errText ++ b.tail.text)
/-- The central value meant. (Specification.) -/
def PMStr.central (b : PMStr) : ℚ := b.start.num.value * powVal b.tail.pow
/-- The symmetric errors meant. (Specification.) -/
def PMStr.sym (b : PMStr) : List ℚ := b.items.filterMap fun
  | .sym _ _ n _ => some (n.value * powVal b.tail.pow)
  | .asym .. => none
/-- The asymmetric errors meant, (right, left). (Specification.) -/
def PMStr.asym (b : PMStr) : List (ℚ × ℚ) := b.items.filterMap fun
  | .sym .. => none
  | .asym _ n1 _ _ n2 _ => some (n1.value * powVal b.tail.pow, n2.value * powVal b.tail.pow)

theorem PMStr.match (b : PMStr) :
    pmatch patPlusminus b.text = some ([], mainCaps b.start.num.text b.errText b.tail.pow) := by
  apply Eats.pmatch
  unfold patPlusminus PMStr.text
  have htail := b.tail.head (p := isSpace) (by decide) (by decide) (by decide) (by decide) (by decide)
  have hdot := b.tail.head (p := fun y => y == '.') (by decide) (by decide) (by decide) (by decide)
    (by decide)
  have hpm := b.tail.head (p := isPm) (by decide) (by decide) (by decide) (by decide) (by decide)
  have hh : ∀ p : Char → Bool, p '+' = false → p '±' = false → p '\\' = false →
      HeadNot p (b.errText ++ b.tail.text ++ []) := by
    intro p h1 h2 h3
    unfold PMStr.errText PMStr.items
    rw [List.map_cons, List.flatten_cons]
    cases b.first with
    | sym sep wa n wb => cases sep <;> (apply headNot_cons; assumption)
    | asym => exact headNot_cons h1
  refine Eats.start b.start (hh _ (by decide) (by decide) (by decide))
    (hh _ (by decide) (by decide) (by decide)) (hh _ (by decide) (by decide) (by decide)) ?_
  refine Eats.seqs (c1 := [(1, b.start.num.text), (2, b.errText)]) ?_ (Eats.tail 3 b.tail _)
  have hplus : Eats (plus pmItem) b.errText (b.tail.text ++ []) [(1, b.start.num.text)]
      [(1, b.start.num.text)] := by
    unfold PMStr.errText
    rw [← items_text, List.append_nil]
    have hb := blocks_eats b.items b.ok (c := [(1, b.start.num.text)]) htail hdot b.ends
    cases hbl : b.items.flatMap PItem.blocks with
    | nil =>
      exfalso
      unfold PMStr.items at hbl
      rw [List.flatMap_cons] at hbl
      cases hf : b.first <;> simp [hf, PItem.blocks] at hbl
    | cons u l =>
      rw [hbl] at hb
      refine Eats.plusBlocks ?_ hb ?_
      · intro v hv
        rw [← hbl, List.mem_flatMap] at hv
        obtain ⟨i, -, hv⟩ := hv
        cases i with
        | sym sep wa n wb => simp [PItem.blocks] at hv; simp [hv, sep.ne]
        | asym => simp [PItem.blocks] at hv; rcases hv with rfl | rfl <;> simp
      · intro k
        unfold pmItem
        rw [run_seqs_cons]
        show run (.seq (.chr isPm) _) _ _ _ = none
        rw [run_seq, run_chr_headNot hpm]
  have := Eats.grp (n := 2) hplus
  simpa [Dict.set] using this

/-! ## Splitting the error string -/

theorem sym_none {s : List Char} (h : HeadNot (fun c => c == '±' || c == '\\' || c == '+') s) :
    pmatch patSymmetricErr s = none := by
  cases s with
  | nil => rfl
  | cons x s =>
    have := h x rfl
    simp at this
    simp [pmatch, patSymmetricErr, run, alts, Re.seqs, lit, this]

theorem asym_none {s : List Char} (h : HeadNot (fun c => c == '+') s) :
    pmatch patAsymmetricErr s = none := by
  unfold pmatch patAsymmetricErr
  rw [run_seqs_cons, run_lit_headNot h]

theorem skipAll {r : Re} {p : Char → Bool} (hr : ∀ s, HeadNot p s → pmatch r s = none)
    {u rest : List Char} (hu : ∀ c ∈ u, p c = false) {res} (h : FindAll r rest res) :
    FindAll r (u ++ rest) res := by
  refine FindAll.skip ?_ h
  intro v w e hw
  apply hr
  cases w with
  | nil => exact absurd rfl hw
  | cons y w => exact headNot_cons (hu y (by rw [e]; simp))

/-- `+` followed by something that is neither `-`: no symmetric error starts here. -/
theorem sym_none_plus {s : List Char} (h : HeadNot (fun c => c == '-') s) :
    pmatch patSymmetricErr ('+' :: s) = none := by
  cases s with
  | nil => rfl
  | cons x s =>
    have := h x rfl
    simp at this
    simp [pmatch, patSymmetricErr, run, alts, Re.seqs, lit, this]

theorem run_starChr_headNot {p : Char → Bool} {s : List Char} (h : HeadNot p s) (c k) :
    run (.star (.chr p)) s c k = k s c := by
  show loop (run (.chr p)) s.length s c k = k s c
  cases hs : s.length with
  | zero => rfl
  | succ n => rw [loop, run_chr_headNot h]; rfl

/-- `+-` does not start an asymmetric error. -/
theorem asym_none_plusminus (s : List Char) : pmatch patAsymmetricErr ('+' :: '-' :: s) = none := by
  unfold pmatch patAsymmetricErr
  rw [run_seqs_cons, run_lit, run_seqs_cons]
  unfold Re.ws
  rw [run_starChr_headNot (headNot_cons (by decide)), run_seqs_cons, run_grp]
  unfold num
  rw [run_seqs_cons]
  show run (.seq dig _) _ _ _ = none
  rw [run_seq]
  unfold dig
  rw [run_chr_headNot (headNot_cons (by decide))]

theorem not_start_of_numChar_sym {l : List Char} (h : All isDigit l) :
    ∀ c ∈ l, (c == '±' || c == '\\' || c == '+') = false := by
  intro c hc
  rw [digit_ne (by decide) c (h c hc), digit_ne (by decide) c (h c hc), digit_ne (by decide) c (h c hc)]
  rfl

/-- Digits, dots and spaces. (Specification.) -/
def plainChar (c : Char) : Bool := isDigit c || c == '.' || isSpace c
theorem numeral_plain (n : Numeral) : All plainChar n.text := by
  unfold Numeral.text
  refine (n.int_dig.mono fun c hc => by simp [plainChar, hc]).append ?_
  cases h : n.frac with
  | none => exact All.nil
  | some f => exact All.cons (by decide) ((n.frac_dig f h).mono fun c hc => by simp [plainChar, hc])
theorem space_plain {w : List Char} (h : All isSpace w) : All plainChar w :=
  h.mono fun c hc => by simp [plainChar, hc]
theorem plain_ne {x : Char} (hx : plainChar x = false) {c : Char} (h : plainChar c = true) :
    (c == x) = false := by
  cases hd : c == x with
  | false => rfl
  | true => simp at hd; subst hd; rw [h] at hx; cases hx
theorem plain_sym {l : List Char} (h : All plainChar l) :
    ∀ c ∈ l, (c == '±' || c == '\\' || c == '+') = false := by
  intro c hc
  rw [plain_ne (by decide) (h c hc), plain_ne (by decide) (h c hc), plain_ne (by decide) (h c hc)]
  rfl
theorem plain_asym {l : List Char} (h : All plainChar l) : ∀ c ∈ l, (c == '+') = false :=
  fun c hc => plain_ne (by decide) (h c hc)

/-- The rest of the error string (further items) does not continue a number. -/
theorem rest_ends (l : List PItem) (n : Numeral) {w : List Char} (hw : All isSpace w) :
    EndsNum n (w ++ (l.map PItem.text).flatten) := by
  have h := fun p h1 h2 h3 => pitems_head l (rest := []) (p := p) h1 h2 h3 (headNot_nil _)
  simp only [List.append_nil] at h
  exact EndsNum.ws hw (EndsNum.of (h _ (by decide) (by decide) (by decide))
    (h _ (by decide) (by decide) (by decide)))

theorem sym_match (sep : Sep) {wa : List Char} (n : Numeral) {rest : List Char} (ha : All isSpace wa)
    (he : EndsNum n rest) :
    pmatch patSymmetricErr ((sep.text ++ (wa ++ n.text)) ++ rest) = some (rest, [(1, wa ++ n.text)]) := by
  refine Eats.pmatch_rest ?_
  unfold patSymmetricErr
  refine Eats.seq (c1 := []) ?_ ?_
  · cases sep
    · exact Eats.altL (Eats.lit '±' _ _)
    · refine Eats.altR (fun k => by simp [Sep.text, lit, run]) (Eats.altL ?_)
      exact Eats.seqs (u := ['\\']) (v := ['p', 'm']) (Eats.lit _ _ _)
        (Eats.seqs (u := ['p']) (v := ['m']) (Eats.lit _ _ _) (Eats.one (Eats.lit _ _ _)))
    · refine Eats.altR (fun k => by simp [Sep.text, lit, run])
        (Eats.altR (fun k => by simp [Sep.text, lit, run, Re.seqs]) ?_)
      exact Eats.seqs (u := ['+']) (v := ['-']) (Eats.lit _ _ _) (Eats.one (Eats.lit _ _ _))
  · have h1 : Eats (.seq Re.ws num) (wa ++ n.text) rest [] [] :=
      Eats.seq (Eats.ws ha (digit_headNot_text n (fun c hc => isDigit_not_space hc) _)) (Eats.num n he)
    simpa [Dict.set] using Eats.grp (n := 1) h1

theorem asym_match {wa wb wc : List Char} (n1 n2 : Numeral) {rest : List Char} (ha : All isSpace wa)
    (hb : All isSpace wb) (hc : All isSpace wc) (he : EndsNum n2 rest) :
    pmatch patAsymmetricErr ((['+'] ++ (wa ++ (n1.text ++ (wb ++ (['-'] ++ (wc ++ n2.text)))))) ++ rest)
      = some (rest, [(1, n1.text), (2, n2.text)]) := by
  refine Eats.pmatch_rest ?_
  unfold patAsymmetricErr
  refine Eats.seqs (Eats.lit '+' _ _) (Eats.seqs (Eats.ws ha ?_) (Eats.seqs (c1 := [(1, n1.text)]) ?_
    (Eats.seqs (Eats.ws hb ?_) (Eats.seqs (Eats.lit '-' _ _) (Eats.seqs (Eats.ws hc ?_)
      (Eats.one ?_))))))
  · rw [List.append_assoc]
    exact digit_headNot_text n1 (fun c hc => isDigit_not_space hc) _
  · have := Eats.grp (n := 1) (Eats.num n1 (c := [])
      (rest := wb ++ (['-'] ++ (wc ++ n2.text)) ++ rest) (by
        rw [List.append_assoc]; exact EndsNum.ws hb (EndsNum.cons (by decide) (by decide))))
    simpa [Dict.set] using this
  · exact headNot_cons (by decide)
  · exact digit_headNot_text n2 (fun c hc => isDigit_not_space hc) _
  · simpa [Dict.set] using Eats.grp (n := 2) (Eats.num n2 (c := [(1, n1.text)]) he)

/-- Captured symmetric errors. (Specification.) -/
def symCaps (l : List PItem) : List Caps := l.filterMap fun
  | .sym _ wa n _ => some [(1, wa ++ n.text)]
  | .asym .. => none
/-- Captured asymmetric errors. (Specification.) -/
def asymCaps (l : List PItem) : List Caps := l.filterMap fun
  | .sym .. => none
  | .asym _ n1 _ _ n2 _ => some [(1, n1.text), (2, n2.text)]

theorem findall_sym (l : List PItem) (hl : ∀ i ∈ l, i.OK) :
    FindAll patSymmetricErr (l.map PItem.text).flatten (symCaps l) := by
  induction l with
  | nil => exact FindAll.nil rfl
  | cons i l ih =>
    have ih := ih fun j hj => hl j (by simp [hj])
    have hi := hl i (by simp)
    rw [List.map_cons, List.flatten_cons]
    cases i with
    | sym sep wa n wb =>
      have hskip := skipAll (r := patSymmetricErr) (fun s h => sym_none h) (plain_sym (space_plain hi.2)) ih
      have := FindAll.hit (by simp [sep.ne]) (sym_match sep n hi.1 (rest_ends l n hi.2)) hskip
      simpa [PItem.text, symCaps] using this
    | asym wa n1 wb wc n2 wd =>
      obtain ⟨ha, hb, hc, hd⟩ := hi
      have h1 := skipAll (r := patSymmetricErr) (fun s h => sym_none h)
        (plain_sym ((space_plain hc).append ((numeral_plain n2).append (space_plain hd)))) ih
      have h2 := skipAll (r := patSymmetricErr) (u := ['-']) (fun s h => sym_none h) (by simp) h1
      have h3 := skipAll (r := patSymmetricErr) (fun s h => sym_none h)
        (plain_sym ((space_plain ha).append ((numeral_plain n1).append (space_plain hb)))) h2
      have h4 : FindAll patSymmetricErr (['+'] ++ (wa ++ (n1.text ++ wb) ++ (['-'] ++
          (wc ++ (n2.text ++ wd) ++ (l.map PItem.text).flatten)))) (symCaps l) := by
        refine FindAll.skip ?_ h3
        intro v w e hw
        have : w = ['+'] := by
          cases v with
          | nil => simpa using e.symm
          | cons a v => simp at e; exact absurd e.2.2 hw
        subst this
        apply sym_none_plus
        show HeadNot _ (wa ++ (n1.text ++ wb) ++ _)
        rw [List.append_assoc]
        refine HeadNot.append (space_not ha (space_ne (by decide))) ?_
        rw [List.append_assoc]
        exact digit_headNot_text _ (digit_ne (by decide)) _
      simpa [PItem.text, symCaps] using h4

theorem findall_asym (l : List PItem) (hl : ∀ i ∈ l, i.OK) :
    FindAll patAsymmetricErr (l.map PItem.text).flatten (asymCaps l) := by
  induction l with
  | nil => exact FindAll.nil rfl
  | cons i l ih =>
    have ih := ih fun j hj => hl j (by simp [hj])
    have hi := hl i (by simp)
    rw [List.map_cons, List.flatten_cons]
    cases i with
    | sym sep wa n wb =>
      have h1 := skipAll (r := patAsymmetricErr) (fun s h => asym_none h)
        (plain_asym ((space_plain hi.1).append ((numeral_plain n).append (space_plain hi.2)))) ih
      have h2 : FindAll patAsymmetricErr (sep.text ++ (wa ++ (n.text ++ wb) ++
          (l.map PItem.text).flatten)) (asymCaps l) := by
        refine FindAll.skip ?_ h1
        intro v w e hw
        cases sep with
        | pm =>
          cases v with
          | nil => simp [Sep.text] at e; subst e; exact asym_none (headNot_cons (by decide))
          | cons a v => simp [Sep.text] at e; exact absurd e.2.2 hw
        | latex =>
          apply asym_none
          cases w with
          | nil => exact absurd rfl hw
          | cons y w =>
            refine headNot_cons ?_
            have : y ∈ Sep.latex.text := by rw [e]; simp
            simp [Sep.text] at this
            rcases this with rfl | rfl | rfl <;> decide
        | ascii =>
          cases v with
          | nil => simp [Sep.text] at e; subst e; exact asym_none_plusminus _
          | cons a v =>
            cases v with
            | nil => simp [Sep.text] at e; rw [← e.2]; exact asym_none (headNot_cons (by decide))
            | cons b v => simp [Sep.text] at e; exact absurd e.2.2.2 hw
      simpa [PItem.text, asymCaps] using h2
    | asym wa n1 wb wc n2 wd =>
      obtain ⟨ha, hb, hc, hd⟩ := hi
      have hskip := skipAll (r := patAsymmetricErr) (fun s h => asym_none h) (plain_asym (space_plain hd)) ih
      have := FindAll.hit (by simp) (asym_match n1 n2 ha hb hc (rest_ends l n2 hd)) hskip
      simpa [PItem.text, asymCaps] using this

theorem firstChar (i : PItem) (rest : List Char) :
    ∃ x z, i.text ++ rest = x :: z ∧ (x = '+' ∨ x = '±' ∨ x = '\\') := by
  cases i with
  | sym sep wa n wb =>
    cases sep
    · exact ⟨'±', _, rfl, by simp⟩
    · exact ⟨'\\', _, rfl, by simp⟩
    · exact ⟨'+', _, rfl, by simp⟩
  | asym => exact ⟨'+', _, rfl, by simp⟩

theorem mapM_filterMap {α β : Type} (l : List α) (g : α → Option Caps) (f : Caps → Except PyErr β)
    (h : α → Option β) (hf : ∀ a ∈ l, (g a = none ∧ h a = none) ∨
      ∃ x y, g a = some x ∧ h a = some y ∧ f x = .ok y) :
    (l.filterMap g).mapM f = .ok (l.filterMap h) := by
  rw [mapM_ok_iff]
  induction l with
  | nil => exact .nil
  | cons a l ih =>
    have ih := ih fun x hx => hf x (by simp [hx])
    rcases hf a (by simp) with ⟨h1, h2⟩ | ⟨x, y, h1, h2, h3⟩
    · rw [List.filterMap_cons_none h1, List.filterMap_cons_none h2]; exact ih
    · rw [List.filterMap_cons_some h1, List.filterMap_cons_some h2]; exact .cons h3 ih

theorem PMStr.text_start (b : PMStr) : ∃ x z, b.text = b.start.text (x :: z) ∧
    (x = '+' ∨ x = '±' ∨ x = '\\') ∧ ∃ y, b.errText = x :: y := by
  obtain ⟨x, z, h1, h2⟩ := firstChar b.first ((b.more.map PItem.text).flatten ++ b.tail.text)
  obtain ⟨x', z', h1', h2'⟩ := firstChar b.first (b.more.map PItem.text).flatten
  have : x' = x := by
    rw [← List.append_assoc, h1'] at h1; injection h1
  subst this
  refine ⟨x', z, ?_, h2, z', ?_⟩
  · unfold PMStr.text PMStr.errText PMStr.items
    rw [List.map_cons, List.flatten_cons, List.append_assoc, h1]
  · unfold PMStr.errText PMStr.items
    rw [List.map_cons, List.flatten_cons, h1']

/-- **C22** Every string in plus-minus notation parses to the central value, the symmetric errors and the
asymmetric (right, left) errors meant, each times the power of ten. -/
theorem C22_errors_from_string (b : PMStr) :
    errorsFromString b.text = .ok ⟨b.central, b.sym, b.asym⟩ := by
  obtain ⟨x, z, htext, hx, y, hy⟩ := b.text_start
  have hb : pmatch patBrackets b.text = none := by
    rw [htext]
    apply brackets_none
    unfold preChar
    rcases hx with rfl | rfl | rfl <;> decide
  unfold errorsFromString
  rw [hb, b.match]
  simp only [Option.none_or, mainCaps_factor, mainCaps_get1, mainCaps_get2]
  have h1 : pmatch patBracketsErr b.errText = none := by
    rw [hy]
    unfold pmatch patBracketsErr
    rw [run_seqs_cons, run_lit_ne]
    rcases hx with rfl | rfl | rfl <;> decide
  have h2 : ((pmatch patSymmetricErr b.errText).isSome || (pmatch patAsymmetricErr b.errText).isSome) =
      true := by
    unfold PMStr.errText PMStr.items
    rw [List.map_cons, List.flatten_cons]
    have hok := b.ok b.first (by simp)
    cases hf : b.first with
    | sym sep wa n wb =>
      rw [hf] at hok
      have := sym_match sep n hok.1 (rest_ends b.more n hok.2)
      have e : (PItem.sym sep wa n wb).text ++ (b.more.map PItem.text).flatten =
        (sep.text ++ (wa ++ n.text)) ++ (wb ++ (b.more.map PItem.text).flatten) := by simp [PItem.text]
      rw [e, this]; rfl
    | asym wa n1 wb wc n2 wd =>
      rw [hf] at hok
      have := asym_match n1 n2 hok.1 hok.2.1 hok.2.2.1 (rest_ends b.more n2 hok.2.2.2)
      have e : (PItem.asym wa n1 wb wc n2 wd).text ++ (b.more.map PItem.text).flatten =
        (['+'] ++ (wa ++ (n1.text ++ (wb ++ (['-'] ++ (wc ++ n2.text)))))) ++
          (wd ++ (b.more.map PItem.text).flatten) := by simp [PItem.text]
      rw [e, this]; simp
  have h3 : findall patSymmetricErr b.errText = symCaps b.items := (findall_sym b.items b.ok).findall
  have h4 : findall patAsymmetricErr b.errText = asymCaps b.items := (findall_asym b.items b.ok).findall
  have m1 : (symCaps b.items).mapM (fun g => do
      let v ← floatFin (group g 1); Except.ok (v * powVal b.tail.pow)) = .ok b.sym := by
    unfold symCaps PMStr.sym
    apply mapM_filterMap
    intro i hi
    have hok := b.ok i hi
    cases i with
    | sym sep wa n wb =>
      right
      refine ⟨_, _, rfl, rfl, ?_⟩
      have : group [(1, wa ++ n.text)] 1 = wa ++ n.text := rfl
      rw [this, n.float wa hok.1]; rfl
    | asym => left; exact ⟨rfl, rfl⟩
  have m2 : (asymCaps b.items).mapM (fun g => do
      let r ← floatFin (group g 1); let l ← floatFin (group g 2)
      Except.ok (r * powVal b.tail.pow, l * powVal b.tail.pow)) = .ok b.asym := by
    unfold asymCaps PMStr.asym
    apply mapM_filterMap
    intro i hi
    cases i with
    | sym => left; exact ⟨rfl, rfl⟩
    | asym wa n1 wb wc n2 wd =>
      right
      refine ⟨_, _, rfl, rfl, ?_⟩
      have e1 : group [(1, n1.text), (2, n2.text)] 1 = [] ++ n1.text := rfl
      have e2 : group [(1, n1.text), (2, n2.text)] 2 = [] ++ n2.text := rfl
      rw [e1, e2, n1.float [] All.nil, n2.float [] All.nil]; rfl
  simp only [h1, h2, h3, h4, Option.isSome_none, if_true, Bool.false_eq_true, if_false, SNumeral.float]
  have hbind : ∀ {α β : Type} (a : α) (f : α → Except PyErr β), (Except.ok a >>= f) = f a := fun _ _ => rfl
  rw [hbind, hbind, m1, hbind, m2, hbind]
  rfl

/-- Characters of a plus-minus string. -/
theorem pitem_chars (i : PItem) (hi : i.OK) {x : Char} (hx : x ∈ i.text) :
    tailChar x ∨ x = '±' ∨ x = '\\' ∨ x = 'p' ∨ x = 'm' := by
  have hn : ∀ n : Numeral, x ∈ n.text → tailChar x := fun n h => Or.inr (Or.inl (n.text_numChar x h))
  cases i with
  | sym sep wa n wb =>
    simp only [PItem.text, List.mem_append] at hx
    rcases hx with h | h | h | h
    · cases sep
      · simp [Sep.text] at h; simp [h]
      · simp [Sep.text] at h; rcases h with rfl | rfl | rfl <;> simp
      · simp [Sep.text] at h; rcases h with rfl | rfl <;> left <;> right <;> left <;> decide
    · exact Or.inl (Or.inl (hi.1 x h))
    · exact Or.inl (hn n h)
    · exact Or.inl (Or.inl (hi.2 x h))
  | asym wa n1 wb wc n2 wd =>
    obtain ⟨ha, hb, hc, hd⟩ := hi
    simp only [PItem.text, List.mem_append, List.mem_singleton] at hx
    rcases hx with rfl | h | h | h | rfl | h | h | h
    · left; right; left; decide
    · exact Or.inl (Or.inl (ha x h))
    · exact Or.inl (hn n1 h)
    · exact Or.inl (Or.inl (hb x h))
    · left; right; left; decide
    · exact Or.inl (Or.inl (hc x h))
    · exact Or.inl (hn n2 h)
    · exact Or.inl (Or.inl (hd x h))

theorem pm_chars (b : PMStr) {x : Char} (hx : x ∈ b.text) :
    tailChar x ∨ x = '±' ∨ x = '\\' ∨ x = 'p' ∨ x = 'm' := by
  rcases start_chars _ _ hx with h | h | h | h
  · exact Or.inl (Or.inl h)
  · left; simp [tailChar, h]
  · exact Or.inl (Or.inr (Or.inl h))
  · rcases List.mem_append.1 h with h | h
    · unfold PMStr.errText at h
      rw [List.mem_flatten] at h
      obtain ⟨u, hu, hx⟩ := h
      obtain ⟨i, hi, rfl⟩ := List.mem_map.1 hu
      exact pitem_chars i (b.ok i hi) hx
    · exact Or.inl (tail_chars _ h)

theorem PMStr.float_raises (b : PMStr) : raises (pyFloat b.text) := by
  obtain ⟨x, z, htext, hx, -⟩ := b.text_start
  rw [htext]
  unfold Start.text
  cases ho : b.start.openP with
  | none =>
    have := pyFloat_garbage b.start.w0 b.start.w0_ws b.start.num b.start.w1 b.start.w1_ws (x := x)
      (by rcases hx with rfl | rfl | rfl <;> decide) (by rcases hx with rfl | rfl | rfl <;> decide)
      (by rcases hx with rfl | rfl | rfl <;> decide) (by rcases hx with rfl | rfl | rfl <;> decide)
      (by rcases hx with rfl | rfl | rfl <;> decide) (by rcases hx with rfl | rfl | rfl <;> decide) z
    simpa [starText] using this
  | some w => exact pyFloat_bad (c := '(') (by decide) (by simp [starText])

theorem constraintsFromString_pm (b : PMStr) : constraintsFromString b.text = (do
      let l ← distsOfErrors ⟨b.central, b.sym, b.asym⟩
      .ok (.list l)) := by
  have hc : ∀ y : Char, isSpace y = false → isNumChar y = false → y ≠ ')' → y ≠ '*' → y ≠ '(' → y ≠ '^' →
      y ≠ '±' → y ≠ '\\' → y ≠ 'p' → y ≠ 'm' → y ∉ b.text := by
    intro y h1 h2 h3 h4 h5 h6 h7 h8 h9 h10 h
    rcases pm_chars b h with h | h | h | h | h
    · exact tailChar_not h h1 h2 h3 h4 h5 h6 rfl
    all_goals contradiction
  rw [constraints_of_errors (s := b.text) b.float_raises
    (by apply hc <;> decide) (by apply hc <;> decide) (by apply hc <;> decide) (by apply hc <;> decide)
    (by rw [b.match]; simp), C22_errors_from_string]
  rfl

/-- **C22** `constraints_from_string` on plus-minus notation with positive errors gives the normal
distributions for the symmetric errors followed by the asymmetric normal distributions, all with the
central value meant. -/
theorem C22_constraints_from_string (b : PMStr) (h1 : ∀ e ∈ b.sym, 0 < e)
    (h2 : ∀ e ∈ b.asym, 0 < e.1 ∧ 0 < e.2) :
    constraintsFromString b.text = .ok (.list (b.sym.map (.normal b.central) ++
      b.asym.map fun e => .asymNormal b.central e.1 e.2)) := by
  rw [constraintsFromString_pm]
  have m1 : b.sym.mapM (mkNormal b.central) = .ok (b.sym.map (.normal b.central)) := by
    have := mapM_eq b.sym id (mkNormal b.central) (.normal b.central) (fun e he => by
      simp [mkNormal, not_le.2 (h1 e he)])
    simpa using this
  have m2 : b.asym.mapM (fun p => mkAsym b.central p.1 p.2) =
      .ok (b.asym.map fun e => .asymNormal b.central e.1 e.2) := by
    have := mapM_eq b.asym id (fun p => mkAsym b.central p.1 p.2)
      (fun e => .asymNormal b.central e.1 e.2) (fun e he => by
        simp [mkAsym, not_le.2 (h2 e he).1, not_le.2 (h2 e he).2])
    simpa using this
  simp only [distsOfErrors, m1, m2, bind, Except.bind]

/-- Concrete instance: `(1.67 ± 0.3 + 0.1 - 0.2) * 10^(-3)`. -/
def exPM : PMStr where
  start := ⟨[], some [], ⟨false, ⟨['1'], some ['6', '7'], by simp, by unfold All; decide,
    by intro f h; injection h with h; subst h; unfold All; decide⟩⟩, [' '], All.nil,
    by intro w h; injection h with h; subst h; exact All.nil, by unfold All; decide⟩
  first := .sym .pm [' '] ⟨['0'], some ['3'], by simp, by unfold All; decide,
    by intro f h; injection h with h; subst h; unfold All; decide⟩ [' ']
  more := [.asym [' '] ⟨['0'], some ['1'], by simp, by unfold All; decide,
    by intro f h; injection h with h; subst h; unfold All; decide⟩ [' '] [' ']
    ⟨['0'], some ['2'], by simp, by unfold All; decide,
    by intro f h; injection h with h; subst h; unfold All; decide⟩ []]
  tail := ⟨some [' '], some [' '], some ⟨.ten, true, ⟨.minus, ['3'], by simp, by unfold All; decide⟩, true⟩,
    by intro w h; injection h with h; subst h; unfold All; decide,
    by intro w h; injection h with h; subst h; unfold All; decide⟩
  ok := by
    intro i hi; simp at hi
    rcases hi with rfl | rfl <;> unfold PItem.OK All <;> decide
  ends := headNot_cons (by decide)

example : exPM.text = "(1.67 ± 0.3 + 0.1 - 0.2) * 10^(-3)".toList := by decide
example : exPM.sym = [3 / 10000] ∧ exPM.asym = [(1 / 10000, 2 / 10000)] := by
  simp [exPM, PMStr.sym, PMStr.asym, PMStr.items, powVal, Expo.value, Sign.ival, Numeral.value,
    Numeral.fracDigits, natVal, digitVal]
  norm_num [zpow_neg]

end Verif.Parse
