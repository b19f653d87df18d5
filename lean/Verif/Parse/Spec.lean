import Verif.Parse.Model
import Verif.Py.ExceptLemmas
import Mathlib.Tactic.Ring
import Mathlib.Tactic.NormNum
import Mathlib.Tactic.FieldSimp
import Mathlib.Tactic.Positivity
import Mathlib.Tactic.IntervalCases
/-!
# Specification of the notations, and lemmas on `float`

The notations are given by *rendering* functions from structured data to text; the theorems say that
the parser inverts the rendering.
-/
set_option linter.unusedSimpArgs false
set_option linter.unusedVariables false
namespace Verif.Parse
open Verif.Py Verif.Py.Re

/-- All characters satisfy `p`. (Specification.) -/
def All (p : Char → Bool) (l : List Char) : Prop := ∀ c ∈ l, p c = true

/-- An unsigned decimal number `D`, `D.` or `D.F`. (Specification.) -/
structure Numeral where
  int : List Char
  frac : Option (List Char)
  int_ne : int ≠ []
  int_dig : All isDigit int
  frac_dig : ∀ f, frac = some f → All isDigit f

namespace Numeral
/-- Digits after the decimal point. (Specification.) -/
def fracDigits (n : Numeral) : List Char := n.frac.getD []
/-- (Specification.) -/
def text (n : Numeral) : List Char :=
  n.int ++ (match n.frac with | none => [] | some f => '.' :: f)
/-- Positional value. (Specification.) -/
def value (n : Numeral) : ℚ := natVal n.int + natVal n.fracDigits / 10 ^ n.fracDigits.length
/-- Unit of the last digit. (Specification.) -/
def unit (n : Numeral) : ℚ := 1 / 10 ^ n.fracDigits.length
end Numeral

/-- A sign as written: nothing, `+` or `-`. (Specification.) -/
inductive Sign where | none | plus | minus
  deriving DecidableEq
/-- (Specification.) -/
def Sign.text : Sign → List Char | .none => [] | .plus => ['+'] | .minus => ['-']
/-- (Specification.) -/
def Sign.val : Sign → ℚ | .minus => -1 | _ => 1
/-- (Specification.) -/
def Sign.ival : Sign → ℤ | .minus => -1 | _ => 1

/-- An integer exponent as written: sign and digits. (Specification.) -/
structure Expo where
  sign : Sign
  digits : List Char
  ne : digits ≠ []
  dig : All isDigit digits
/-- (Specification.) -/
def Expo.text (e : Expo) : List Char := e.sign.text ++ e.digits
/-- (Specification.) -/
def Expo.value (e : Expo) : ℤ := e.sign.ival * natVal e.digits

/-! ## Lists -/

theorem takeWhile_run {p : Char → Bool} (w : List Char) {rest} (hw : All p w) (hr : HeadNot p rest) :
    (w ++ rest).takeWhile p = w := by
  induction w with
  | nil =>
    cases rest with
    | nil => rfl
    | cons x r => simp [hr x rfl]
  | cons x w ih =>
    simp [hw x (by simp), ih (fun c hc => hw c (by simp [hc]))]

theorem dropWhile_run {p : Char → Bool} (w : List Char) {rest} (hw : All p w) (hr : HeadNot p rest) :
    (w ++ rest).dropWhile p = rest := by
  induction w with
  | nil =>
    cases rest with
    | nil => rfl
    | cons x r => simp [hr x rfl]
  | cons x w ih =>
    simp [hw x (by simp), ih (fun c hc => hw c (by simp [hc]))]

theorem natVal_foldl (b : List Char) (a : ℕ) :
    b.foldl (fun a c => 10 * a + digitVal c) a = a * 10 ^ b.length + natVal b := by
  induction b generalizing a with
  | nil => simp [natVal]
  | cons x b ih =>
    rw [natVal, List.foldl_cons, List.foldl_cons, ih, ih (10 * 0 + digitVal x)]
    simp [pow_succ]; ring

theorem natVal_append (a b : List Char) : natVal (a ++ b) = natVal a * 10 ^ b.length + natVal b := by
  rw [natVal, List.foldl_append, natVal_foldl]; rfl

/-! ## Character classes -/

theorem isDigit_not_space {c : Char} (h : isDigit c = true) : isSpace c = false := by
  simp [isDigit, isSpace] at *; omega

theorem digit_cases {c : Char} (h : isDigit c = true) : c = '0' ∨ c = '1' ∨ c = '2' ∨ c = '3' ∨ c = '4'
    ∨ c = '5' ∨ c = '6' ∨ c = '7' ∨ c = '8' ∨ c = '9' := by
  simp only [isDigit, Bool.and_eq_true, decide_eq_true_eq] at h
  obtain ⟨h1, h2⟩ := h
  rw [← Char.ofNat_toNat c]
  generalize c.toNat = n at *
  interval_cases n <;> decide

/-- Characters of numbers: digits, `.`, signs, `e`, `E`. (Specification.) -/
def isNumChar (c : Char) : Bool :=
  isDigit c || c == '.' || c == '-' || c == '+' || c == 'e' || c == 'E'

theorem isNumChar_not_space {c : Char} (h : isNumChar c = true) : isSpace c = false := by
  simp [isNumChar] at h
  rcases h with ((((h | rfl) | rfl) | rfl) | rfl) | rfl
  · exact isDigit_not_space h
  all_goals rfl

theorem isDigit_numChar {c : Char} (h : isDigit c = true) : isNumChar c = true := by
  simp [isNumChar, h]

theorem isNumChar_ne_underscore {c : Char} (h : isNumChar c = true) : c ≠ '_' := by
  rintro rfl; revert h; decide

theorem All.append {p : Char → Bool} {a b : List Char} (ha : All p a) (hb : All p b) : All p (a ++ b) := by
  intro c hc; rcases List.mem_append.1 hc with h | h; exacts [ha c h, hb c h]

theorem All.nil {p : Char → Bool} : All p [] := by simp [All]
theorem All.cons {p : Char → Bool} {x : Char} {a : List Char} (hx : p x = true) (ha : All p a) :
    All p (x :: a) := by
  intro c hc; rcases List.mem_cons.1 hc with rfl | h; exacts [hx, ha c h]
theorem All.mono {p q : Char → Bool} {a : List Char} (h : ∀ c, p c = true → q c = true)
    (ha : All p a) : All q a := fun c hc => h c (ha c hc)

theorem Numeral.fracDigits_dig (n : Numeral) : All isDigit n.fracDigits := by
  unfold Numeral.fracDigits
  cases h : n.frac with
  | none => exact All.nil
  | some f => exact n.frac_dig f h

theorem Numeral.text_numChar (n : Numeral) : All isNumChar n.text := by
  unfold Numeral.text
  refine (n.int_dig.mono fun _ => isDigit_numChar).append ?_
  cases h : n.frac with
  | none => exact All.nil
  | some f => exact All.cons (by decide) ((n.frac_dig f h).mono fun _ => isDigit_numChar)

theorem Sign.text_numChar (s : Sign) : All isNumChar s.text := by
  cases s <;> intro c hc <;> simp [Sign.text] at hc <;> subst hc <;> decide

theorem Expo.text_numChar (e : Expo) : All isNumChar e.text :=
  e.sign.text_numChar.append (e.dig.mono fun _ => isDigit_numChar)

/-- A digit string's head is a digit. -/
theorem Numeral.head_digit (n : Numeral) (rest : List Char) :
    ∃ c t, n.text ++ rest = c :: t ∧ isDigit c = true := by
  obtain ⟨c, t, h⟩ := List.exists_cons_of_ne_nil n.int_ne
  exact ⟨c, t ++ (match n.frac with | none => [] | some f => '.' :: f) ++ rest,
    by unfold Numeral.text; rw [h, List.cons_append, List.cons_append],
    n.int_dig c (by simp [h])⟩

/-! ## `float` on numerals -/

theorem strip_numChar (w t : List Char) (hw : All isSpace w) (ht : All isNumChar t) :
    strip (w ++ t) = t := by
  have h1 : HeadNot isSpace t := by
    intro x hx; exact isNumChar_not_space (ht x (List.mem_of_mem_head? hx))
  have h2 : HeadNot isSpace t.reverse := by
    intro x hx
    exact isNumChar_not_space (ht x (List.mem_reverse.1 (List.mem_of_mem_head? hx)))
  unfold strip
  rw [dropWhile_run w hw h1]
  have := dropWhile_run (p := isSpace) [] All.nil h2
  rw [List.nil_append] at this
  rw [this, List.reverse_reverse]

theorem dropUnderscores_id (b : Bool) (t : List Char) (ht : '_' ∉ t) :
    dropUnderscores b t = some t := by
  induction t generalizing b with
  | nil => rfl
  | cons c t ih =>
    have hc : c ≠ '_' := fun h => ht (by simp [h])
    have h2 := ih (isDigit c) (fun h => ht (by simp [h]))
    unfold dropUnderscores
    split
    · simp_all
    · simp_all
    · rename_i heq
      injection heq with h3 h4
      subst h3 h4
      rw [if_neg hc, h2]; rfl

theorem takeSign_sign (s : Sign) {c : Char} (t : List Char) (hc : isDigit c = true) :
    takeSign (s.text ++ c :: t) = (s.val, c :: t) := by
  cases s
  · have h1 : c ≠ '-' := by rintro rfl; revert hc; decide
    have h2 : c ≠ '+' := by rintro rfl; revert hc; decide
    simp only [Sign.text, Sign.val, List.nil_append]
    unfold takeSign
    split <;> simp_all
  · rfl
  · rfl

theorem expVal_nil : expVal [] = .ok 0 := rfl

theorem expVal_expo {x : Char} (hx : x = 'e' ∨ x = 'E') (e : Expo) :
    expVal (x :: e.text) = .ok e.value := by
  obtain ⟨c, t, h⟩ := List.exists_cons_of_ne_nil e.ne
  have hc : isDigit c = true := e.dig c (by simp [h])
  have hs := takeSign_sign e.sign t hc
  have hd : (takeSign e.text).2 = e.digits := by rw [Expo.text, h, hs]
  have hhead : (e.text.head? == some '-') = decide (e.sign = .minus) := by
    have h1 : c ≠ '-' := by rintro rfl; revert hc; decide
    unfold Expo.text
    rw [h]
    cases e.sign <;> simp [Sign.text, h1]
  have hall : e.digits ≠ [] ∧ e.digits.all isDigit = true :=
    ⟨e.ne, List.all_eq_true.2 e.dig⟩
  simp only [expVal, if_pos hx, hd, if_pos hall, hhead]
  congr 1
  unfold Expo.value
  cases e.sign <;> simp [Sign.ival]

/-- The text following a number in `float`'s argument: nothing or an exponent. (Specification.) -/
def expText : Option (Char × Expo) → List Char
  | none => []
  | some (x, e) => x :: e.text
/-- (Specification.) -/
def expInt : Option (Char × Expo) → ℤ
  | none => 0
  | some (_, e) => e.value

theorem expVal_expText {o : Option (Char × Expo)} (ho : ∀ x e, o = some (x, e) → x = 'e' ∨ x = 'E') :
    expVal (expText o) = .ok (expInt o) := by
  cases o with
  | none => rfl
  | some p => exact expVal_expo (ho _ _ rfl) p.2

theorem expText_headNot {o : Option (Char × Expo)} (ho : ∀ x e, o = some (x, e) → x = 'e' ∨ x = 'E')
    {p : Char → Bool} (h1 : p 'e' = false) (h2 : p 'E' = false) : HeadNot p (expText o) := by
  cases o with
  | none => exact headNot_nil p
  | some q =>
    rcases ho _ _ rfl with h | h <;> · intro x hx; simp [expText, h] at hx; subst hx; assumption

theorem decVal_numeral (n : Numeral) {o : Option (Char × Expo)}
    (ho : ∀ x e, o = some (x, e) → x = 'e' ∨ x = 'E') :
    decVal (n.text ++ expText o) = .ok (n.value * (10 : ℚ) ^ expInt o) := by
  have hd := expText_headNot (o := o) (p := isDigit) ho (by decide) (by decide)
  have hdot := expText_headNot (o := o) (p := fun c => c == '.') ho (by decide) (by decide)
  have hv : ∀ f : List Char, n.fracDigits = f → (natVal (n.int ++ f) : ℚ) *
      (10 : ℚ) ^ (expInt o - (f.length : ℤ)) = n.value * (10 : ℚ) ^ expInt o := by
    intro f hf
    have h10 : (10 : ℚ) ≠ 0 := by norm_num
    rw [natVal_append, Numeral.value, hf, zpow_sub₀ h10, zpow_natCast]
    push_cast
    field_simp
  unfold decVal Numeral.text
  cases hf : n.frac with
  | none =>
    have h1 := takeWhile_run n.int n.int_dig hd
    have h2 := dropWhile_run n.int n.int_dig hd
    have h3 : fracPart (expText o) = [] := by
      unfold fracPart; split
      · rename_i heq; have := hdot '.' (by rw [heq]; rfl); simp at this
      · rfl
    have h4 : afterFrac (expText o) = expText o := by
      unfold afterFrac; split
      · rename_i heq; have := hdot '.' (by rw [heq]; rfl); simp at this
      · rfl
    simp only [List.append_nil, h1, h2, h3, h4]
    rw [if_neg n.int_ne, expVal_expText ho]
    have := hv [] (by simp [Numeral.fracDigits, hf])
    simp only [List.append_nil] at this
    show Except.ok _ = _
    rw [this]
  | some f =>
    have hfd := n.frac_dig f hf
    have hdd : HeadNot isDigit ('.' :: (f ++ expText o)) := headNot_cons (by decide)
    have h1 := takeWhile_run n.int n.int_dig hdd
    have h2 := dropWhile_run n.int n.int_dig hdd
    have e1 : n.int ++ '.' :: f ++ expText o = n.int ++ '.' :: (f ++ expText o) := by simp
    simp only [e1, h1, h2, fracPart, afterFrac, takeWhile_run f hfd hd, dropWhile_run f hfd hd]
    rw [if_neg (by simp [n.int_ne]), expVal_expText ho]
    show Except.ok _ = _
    rw [hv f (by simp [Numeral.fracDigits, hf])]

/-- `float` of white space, sign, number and optional exponent is the number meant. -/
theorem floatFin_numeral (w : List Char) (hw : All isSpace w) (s : Sign) (n : Numeral)
    {o : Option (Char × Expo)} (ho : ∀ x e, o = some (x, e) → x = 'e' ∨ x = 'E') :
    floatFin (w ++ (s.text ++ (n.text ++ expText o))) =
      .ok (s.val * (n.value * (10 : ℚ) ^ expInt o)) := by
  have hnum : All isNumChar (s.text ++ (n.text ++ expText o)) := by
    refine s.text_numChar.append (n.text_numChar.append ?_)
    cases o with
    | none => exact All.nil
    | some q =>
      refine All.cons ?_ q.2.text_numChar
      rcases ho _ _ rfl with h | h <;> rw [h] <;> decide
  have h1 := strip_numChar w _ hw hnum
  have h2 := dropUnderscores_id false (s.text ++ (n.text ++ expText o))
    (fun h => isNumChar_ne_underscore (hnum _ h) rfl)
  obtain ⟨c, t, hct, hc⟩ := n.head_digit (expText o)
  have h3 : takeSign (s.text ++ (n.text ++ expText o)) = (s.val, n.text ++ expText o) := by
    rw [hct]; exact takeSign_sign s t hc
  have hlow : ∀ d l, Char.toLower c ≠ d → (n.text ++ expText o).map Char.toLower ≠ d :: l := by
    intro d l hd h
    rw [hct, List.map_cons] at h
    injection h with h _; exact hd h
  have hcl : Char.toLower c = c := by rcases digit_cases hc with h | h | h | h | h | h | h | h | h | h <;> subst h <;> decide
  have hi : Char.toLower c ≠ 'i' := by rw [hcl]; rintro rfl; revert hc; decide
  have hn : Char.toLower c ≠ 'n' := by rw [hcl]; rintro rfl; revert hc; decide
  unfold floatFin pyFloat
  simp only [h1, h2, h3]
  rw [if_neg (by
    rintro (h | h)
    · exact hlow 'i' _ hi h
    · exact hlow 'i' _ hi h), if_neg (show _ ≠ "nan".toList from hlow 'n' _ hn), decVal_numeral n ho]
  rfl

/-- `10**float(e)` for an integer exponent text. -/
theorem pow10_expo (e : Expo) : pow10 e.text = .ok ((10 : ℚ) ^ e.value) := by
  have h := floatFin_numeral [] All.nil e.sign ⟨e.digits, none, e.ne, e.dig, by simp⟩
    (o := none) (by simp)
  have ht : e.text = [] ++ (e.sign.text ++ (Numeral.text ⟨e.digits, none, e.ne, e.dig, by simp⟩ ++
      expText none)) := by simp [Expo.text, Numeral.text, expText]
  unfold pow10
  rw [ht, h]
  have hv : e.sign.val * ((Numeral.value ⟨e.digits, none, e.ne, e.dig, by simp⟩) *
      (10 : ℚ) ^ expInt none) = ((e.value : ℤ) : ℚ) := by
    simp only [Numeral.value, Numeral.fracDigits, expInt, zpow_zero, mul_one, Expo.value, Option.getD,
      natVal, List.foldl_nil]
    cases e.sign <;> simp [Sign.val, Sign.ival]
  rw [hv]
  show Except.ok _ = _
  rw [Rat.num_intCast]

end Verif.Parse
