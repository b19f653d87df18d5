import Verif.Parse.Spec
/-!
# The priority path of the matcher on rendered notations
-/
set_option linter.unusedSimpArgs false
set_option linter.unusedVariables false
namespace Verif.Parse
open Verif.Py Verif.Py.Re

/-- `a`, started on `u ++ rest` with captures `c`, first tries to consume exactly `u` (giving captures
`c'`): whatever follows succeeds after that is the result. (Specification.) -/
def Eats (a : Re) (u rest : List Char) (c c' : Caps) : Prop :=
  ∀ (k : Cont) r, k rest c' = some r → run a (u ++ rest) c k = some r

theorem Eats.seq {a b : Re} {u v rest : List Char} {c c1 c2 : Caps}
    (h1 : Eats a u (v ++ rest) c c1) (h2 : Eats b v rest c1 c2) :
    Eats (.seq a b) (u ++ v) rest c c2 := by
  intro k r hk
  rw [List.append_assoc, run_seq]
  exact h1 _ _ (h2 k r hk)

theorem Eats.seqs {a b : Re} {l : List Re} {u v rest : List Char} {c c1 c2 : Caps}
    (h1 : Eats a u (v ++ rest) c c1) (h2 : Eats (seqs (b :: l)) v rest c1 c2) :
    Eats (seqs (a :: b :: l)) (u ++ v) rest c c2 := Eats.seq h1 h2

theorem Eats.one {a : Re} {u rest : List Char} {c c' : Caps} (h : Eats a u rest c c') :
    Eats (Re.seqs [a]) u rest c c' := h

theorem Eats.grp {n : Nat} {a : Re} {u rest : List Char} {c c' : Caps} (h : Eats a u rest c c') :
    Eats (.grp n a) u rest c (c'.set n u) := by
  intro k r hk
  rw [run_grp]
  apply h
  rw [take_sub]; exact hk

theorem Eats.lit (x : Char) (rest : List Char) (c : Caps) : Eats (lit x) [x] rest c c := by
  intro k r hk; rw [List.singleton_append, run_lit]; exact hk

theorem Eats.chr {p : Char → Bool} {x : Char} (h : p x = true) (rest : List Char) (c : Caps) :
    Eats (.chr p) [x] rest c c := by
  intro k r hk; simp [run, h, hk]

theorem Eats.opt {a : Re} {u rest : List Char} {c c' : Caps} (h : Eats a u rest c c') :
    Eats (.opt a) u rest c c' := fun k r hk => run_opt_some (h k r hk)

theorem Eats.optSkip {a : Re} {rest : List Char} {c : Caps} (h : ∀ k, run a rest c k = none) :
    Eats (.opt a) [] rest c c := by
  intro k r hk; rw [List.nil_append, run_opt_none (h k)]; exact hk

theorem Eats.optLitSkip {x : Char} {rest : List Char} {c : Caps} (h : HeadNot (fun y => y == x) rest) :
    Eats (.opt (Re.lit x)) [] rest c c := Eats.optSkip fun _ => run_lit_headNot h _ _

theorem Eats.altL {a b : Re} {u rest : List Char} {c c' : Caps} (h : Eats a u rest c c') :
    Eats (.alt a b) u rest c c' := fun k r hk => run_alt_left (h k r hk)

theorem Eats.altR {a b : Re} {u rest : List Char} {c c' : Caps} (hn : ∀ k, run a (u ++ rest) c k = none)
    (h : Eats b u rest c c') : Eats (.alt a b) u rest c c' := by
  intro k r hk; rw [run_alt_right (hn k)]; exact h k r hk

theorem Eats.starChr {p : Char → Bool} {w rest : List Char} {c : Caps} (hw : All p w)
    (hr : HeadNot p rest) : Eats (.star (.chr p)) w rest c c :=
  fun k r hk => run_star_chr w hw hr hk

theorem Eats.plusChr {p : Char → Bool} {w rest : List Char} {c : Caps} (hne : w ≠ []) (hw : All p w)
    (hr : HeadNot p rest) : Eats (plus (.chr p)) w rest c c :=
  fun k r hk => run_plus_chr w hne hw hr hk

theorem Eats.ws {w rest : List Char} {c : Caps} (hw : All isSpace w) (hr : HeadNot isSpace rest) :
    Eats ws w rest c c := Eats.starChr hw hr

theorem Eats.eos (c : Caps) : Eats .eos [] [] c c := by
  intro k r hk; simp [run, hk]

theorem Eats.pmatch {a : Re} {u : List Char} {c' : Caps} (h : Eats a u [] [] c') :
    Re.pmatch a u = some ([], c') := by
  have := h (fun s' c => some (s', c)) ([], c') rfl
  rwa [List.append_nil] at this

theorem Eats.pmatch_rest {a : Re} {u rest : List Char} {c' : Caps} (h : Eats a u rest [] c') :
    Re.pmatch a (u ++ rest) = some (rest, c') := h (fun s' c => some (s', c)) (rest, c') rfl

/-- Repetition over blocks. -/
theorem Eats.starBlocks {a : Re} {l : List (List Char)} {rest : List Char} {c : Caps}
    (hne : ∀ u ∈ l, u ≠ [])
    (hblock : ∀ pre u post, l = pre ++ u :: post → Eats a u (post.flatten ++ rest) c c)
    (hend : ∀ k, run a rest c k = none) : Eats (.star a) l.flatten rest c c :=
  fun k r hk => run_star_blocks l hne (fun pre u post e k' r' h' => hblock pre u post e k' r' h')
    hend hk

theorem Eats.plusBlocks {a : Re} {u : List Char} {l : List (List Char)} {rest : List Char} {c : Caps}
    (hne : ∀ v ∈ u :: l, v ≠ [])
    (hblock : ∀ pre v post, u :: l = pre ++ v :: post → Eats a v (post.flatten ++ rest) c c)
    (hend : ∀ k, run a rest c k = none) : Eats (plus a) (u :: l).flatten rest c c := by
  rw [List.flatten_cons]
  exact Eats.seq (hblock [] u l rfl) (Eats.starBlocks (fun v hv => hne v (by simp [hv]))
    (fun pre v post e => hblock (u :: pre) v post (by simp [e])) hend)

theorem HeadNot.append {p : Char → Bool} {w rest : List Char} (hw : ∀ c ∈ w, p c = false)
    (hr : HeadNot p rest) : HeadNot p (w ++ rest) := by
  cases w with
  | nil => exact hr
  | cons x w => intro y hy; simp at hy; subst hy; exact hw _ (by simp)

theorem space_not {p : Char → Bool} {w : List Char} (hw : All isSpace w)
    (hp : ∀ c, isSpace c = true → p c = false) : ∀ c ∈ w, p c = false := fun c hc => hp c (hw c hc)

theorem space_not_digit (c : Char) (h : isSpace c = true) : isDigit c = false := by
  cases hd : isDigit c with
  | false => rfl
  | true => rw [isDigit_not_space hd] at h; cases h

theorem space_ne {x : Char} (hx : isSpace x = false) (c : Char) (h : isSpace c = true) :
    (c == x) = false := by
  cases hd : c == x with
  | false => rfl
  | true => simp at hd; subst hd; rw [h] at hx; cases hx

/-- The text after a number does not continue the number. (Specification.) -/
def EndsNum (n : Numeral) (rest : List Char) : Prop :=
  HeadNot isDigit rest ∧ (n.frac = none → HeadNot (fun y => y == '.') rest)

theorem EndsNum.of {n : Numeral} {rest : List Char} (h1 : HeadNot isDigit rest)
    (h2 : HeadNot (fun y => y == '.') rest) : EndsNum n rest := ⟨h1, fun _ => h2⟩

theorem EndsNum.ws {n : Numeral} {w rest : List Char} (hw : All isSpace w) (h : EndsNum n rest) :
    EndsNum n (w ++ rest) :=
  ⟨HeadNot.append (space_not hw space_not_digit) h.1,
   fun hf => HeadNot.append (space_not hw (space_ne (by decide))) (h.2 hf)⟩

theorem EndsNum.cons {n : Numeral} {x : Char} {rest : List Char} (h1 : isDigit x = false)
    (h2 : (x == '.') = false) : EndsNum n (x :: rest) := ⟨headNot_cons h1, fun _ => headNot_cons h2⟩

theorem EndsNum.nil {n : Numeral} : EndsNum n [] := ⟨headNot_nil _, fun _ => headNot_nil _⟩

theorem Eats.num (n : Numeral) {rest : List Char} {c : Caps} (h : EndsNum n rest) :
    Eats num n.text rest c c := by
  unfold Numeral.text
  cases hf : n.frac with
  | none =>
    have h3 : Eats (Re.seqs [.opt (Re.lit '.'), .star dig]) ([] ++ []) rest c c :=
      Eats.seqs (Eats.optLitSkip (by simpa using h.2 hf))
        (Eats.one (Eats.starChr All.nil h.1))
    exact Eats.seqs (Eats.plusChr n.int_ne n.int_dig (by simpa using h.1)) h3
  | some f =>
    have h3 : Eats (Re.seqs [.opt (Re.lit '.'), .star dig]) (['.'] ++ f) rest c c :=
      Eats.seqs (Eats.opt (Eats.lit '.' _ _)) (Eats.one (Eats.starChr (n.frac_dig f hf) h.1))
    exact Eats.seqs (Eats.plusChr n.int_ne n.int_dig (headNot_cons (by decide))) h3

theorem digit_headNot_text (n : Numeral) {p : Char → Bool} (hp : ∀ c, isDigit c = true → p c = false)
    (rest : List Char) : HeadNot p (n.text ++ rest) := by
  obtain ⟨c, t, h, hc⟩ := n.head_digit rest
  rw [h]; exact headNot_cons (hp c hc)

theorem digit_ne {x : Char} (hx : isDigit x = false) (c : Char) (h : isDigit c = true) :
    (c == x) = false := by
  cases hd : c == x with
  | false => rfl
  | true => simp at hd; subst hd; rw [h] at hx; cases hx

/-- A number with optional minus sign. (Specification.) -/
structure SNumeral where
  neg : Bool
  num : Numeral
/-- (Specification.) -/
def SNumeral.text (n : SNumeral) : List Char := (if n.neg then ['-'] else []) ++ n.num.text
/-- (Specification.) -/
def SNumeral.value (n : SNumeral) : ℚ := if n.neg then -n.num.value else n.num.value

theorem Eats.snum (n : SNumeral) {rest : List Char} {c : Caps} (h : EndsNum n.num rest) :
    Eats snum n.text rest c c := by
  unfold SNumeral.text
  cases n.neg
  · exact Eats.seq (Eats.optLitSkip (digit_headNot_text _ (digit_ne (by decide)) _)) (Eats.num _ h)
  · exact Eats.seq (Eats.opt (Eats.lit '-' _ _)) (Eats.num _ h)

theorem SNumeral.float (n : SNumeral) : floatFin n.text = .ok n.value := by
  have := floatFin_numeral [] All.nil (if n.neg then .minus else .none) n.num (o := none) (by simp)
  unfold SNumeral.text SNumeral.value
  cases h : n.neg <;> simp [h, Sign.text, Sign.val, expText, expInt] at this ⊢ <;> exact this

theorem Numeral.float (n : Numeral) (w : List Char) (hw : All isSpace w) :
    floatFin (w ++ n.text) = .ok n.value := by
  have := floatFin_numeral w hw .none n (o := none) (by simp)
  simpa [Sign.text, Sign.val, expText, expInt] using this

theorem Eats.optSign (s : Sign) {c : Char} (t : List Char) (caps : Caps) (hc : isDigit c = true) :
    Eats optSign s.text (c :: t) caps caps := by
  cases s
  · refine Eats.optSkip fun k => run_chr_headNot (headNot_cons ?_) _ _
    rw [digit_ne (by decide) c hc, digit_ne (by decide) c hc]; rfl
  · exact Eats.opt (Eats.chr (by decide) _ _)
  · exact Eats.opt (Eats.chr (by decide) _ _)

/-- `[+-]?\d+` -/
theorem Eats.signDigits (e : Expo) {rest : List Char} {c : Caps} (h : HeadNot isDigit rest) :
    Eats (Re.seqs [Parse.optSign, plus dig]) e.text rest c c := by
  obtain ⟨x, t, hx⟩ := List.exists_cons_of_ne_nil e.ne
  refine Eats.seqs ?_ (Eats.one (Eats.plusChr e.ne e.dig h))
  rw [hx]
  exact Eats.optSign e.sign _ _ (e.dig x (by simp [hx]))

/-- `[eE][-+]?\d+` -/
theorem Eats.expo {x : Char} (hx : x = 'e' ∨ x = 'E') (e : Expo) {rest : List Char} {c : Caps}
    (h : HeadNot isDigit rest) : Eats Parse.expo (x :: e.text) rest c c := by
  refine Eats.seqs (u := [x]) (Eats.chr ?_ _ _) (Eats.signDigits e h)
  rcases hx with rfl | rfl <;> decide

/-- The ways to write a power of ten. (Specification.) -/
inductive PowForm where | e | E | oneE | oneEE | ten
/-- (Specification.) -/
def PowForm.text : PowForm → List Char
  | .e => ['e'] | .E => ['E'] | .oneE => ['1', 'e'] | .oneEE => ['1', 'E'] | .ten => ['1', '0', '^']

/-- A power of ten as written: `e-3`, `1E(5)`, `10^(+2)`, ... (Specification.) -/
structure Power where
  form : PowForm
  openP : Bool
  expo : Expo
  closeP : Bool
/-- (Specification.) -/
def Power.text (p : Power) : List Char :=
  p.form.text ++ ((if p.openP then ['('] else []) ++ (p.expo.text ++ (if p.closeP then [')'] else [])))

theorem Eats.power (n : Nat) (p : Power) (c : Caps) :
    Eats (Parse.power n) p.text [] c (c.set n p.expo.text) := by
  unfold Power.text
  refine Eats.opt (Eats.seqs (c1 := c) ?_ (Eats.seqs (c1 := c) ?_
    (Eats.seqs (c1 := c.set n p.expo.text) ?_ (Eats.one ?_))))
  · cases p.form
    · exact Eats.altL (Eats.lit 'e' _ _)
    · exact Eats.altR (fun k => by simp [PowForm.text, Re.lit, run]) (Eats.altL (Eats.lit 'E' _ _))
    · refine Eats.altR (fun k => by simp [PowForm.text, Re.lit, run])
        (Eats.altR (fun k => by simp [PowForm.text, Re.lit, run]) (Eats.altL ?_))
      exact Eats.seqs (u := ['1']) (v := ['e']) (Eats.lit '1' _ _) (Eats.one (Eats.lit 'e' _ _))
    · refine Eats.altR (fun k => by simp [PowForm.text, Re.lit, run])
        (Eats.altR (fun k => by simp [PowForm.text, Re.lit, run])
          (Eats.altR (fun k => by simp [PowForm.text, Re.lit, run, Re.seqs]) (Eats.altL ?_)))
      exact Eats.seqs (u := ['1']) (v := ['E']) (Eats.lit '1' _ _) (Eats.one (Eats.lit 'E' _ _))
    · refine Eats.altR (fun k => by simp [PowForm.text, Re.lit, run])
        (Eats.altR (fun k => by simp [PowForm.text, Re.lit, run])
          (Eats.altR (fun k => by simp [PowForm.text, Re.lit, run, Re.seqs])
            (Eats.altR (fun k => by simp [PowForm.text, Re.lit, run, Re.seqs]) ?_)))
      exact Eats.seqs (u := ['1']) (v := ['0', '^']) (Eats.lit '1' _ _)
        (Eats.seqs (u := ['0']) (v := ['^']) (Eats.lit '0' _ _) (Eats.one (Eats.lit '^' _ _)))
  · cases p.openP
    · refine Eats.optLitSkip ?_
      have : HeadNot (fun y => y == '(') p.expo.text := by
        intro x hx
        have := p.expo.text_numChar x (List.mem_of_mem_head? hx)
        cases hd : x == '(' with
        | false => exact hd
        | true => simp at hd; subst hd; revert this; decide
      cases h : p.expo.text with
      | nil =>
        exfalso
        simp [Expo.text, p.expo.ne] at h
      | cons x t => rw [h] at this; exact headNot_cons (this x rfl)
    · exact Eats.opt (Eats.lit '(' _ _)
  · refine Eats.grp (Eats.signDigits _ ?_)
    cases p.closeP
    · exact headNot_nil _
    · exact headNot_cons (by decide)
  · cases p.closeP
    · exact Eats.optLitSkip (headNot_nil _)
    · exact Eats.opt (Eats.lit ')' _ _)

theorem Eats.powerNone (n : Nat) (c : Caps) : Eats (Parse.power n) [] [] c c :=
  Eats.optSkip fun k => rfl

/-- Optional power of ten. (Specification.) -/
def powText : Option Power → List Char
  | none => []
  | some p => p.text
/-- (Specification.) -/
def powVal : Option Power → ℚ
  | none => 1
  | some p => (10 : ℚ) ^ p.expo.value
/-- (Specification.) -/
def powCaps (n : Nat) (c : Caps) : Option Power → Caps
  | none => c
  | some p => c.set n p.expo.text

theorem Eats.powerOpt (n : Nat) (o : Option Power) (c : Caps) :
    Eats (Parse.power n) (powText o) [] c (powCaps n c o) := by
  cases o with
  | none => exact Eats.powerNone n c
  | some p => exact Eats.power n p c

theorem overallFactor_pow (n : Nat) (o : Option Power) (c : Caps) (hc : c.get? n = none) :
    overallFactor (powCaps n c o) n = .ok (powVal o) := by
  cases o with
  | none => simp [overallFactor, powCaps, hc, powVal]
  | some p => simp [overallFactor, powCaps, pow10_expo, powVal]

/-- First character of a power of ten. -/
theorem powText_head (o : Option Power) {p : Char → Bool} (h1 : p 'e' = false) (h2 : p 'E' = false)
    (h3 : p '1' = false) : HeadNot p (powText o) := by
  cases o with
  | none => exact headNot_nil p
  | some q =>
    cases hq : q.form <;> simp only [powText, Power.text, hq, PowForm.text, List.cons_append] <;>
      apply headNot_cons <;> assumption

/-- What may follow the errors: closing bracket, star, power of ten. (Specification.) -/
structure Tail where
  close : Option (List Char)
  star : Option (List Char)
  pow : Option Power
  close_ws : ∀ w, close = some w → All isSpace w
  star_ws : ∀ w, star = some w → All isSpace w
/-- (Specification.) -/
def starText (x : Char) : Option (List Char) → List Char
  | none => []
  | some w => x :: w
/-- (Specification.) -/
def Tail.text (t : Tail) : List Char := starText ')' t.close ++ (starText '*' t.star ++ powText t.pow)

theorem starText_head (x : Char) (o : Option (List Char)) {rest : List Char} {p : Char → Bool}
    (hx : p x = false) (hr : HeadNot p rest) : HeadNot p (starText x o ++ rest) := by
  cases o with
  | none => exact hr
  | some w => exact headNot_cons hx

theorem Tail.head (t : Tail) {p : Char → Bool} (h1 : p 'e' = false) (h2 : p 'E' = false)
    (h3 : p '1' = false) (h4 : p ')' = false) (h5 : p '*' = false) : HeadNot p t.text :=
  starText_head _ _ h4 (starText_head _ _ h5 (powText_head _ h1 h2 h3))

/-- `x?\s*` on an optional `x` followed by white space. -/
theorem Eats.optWs {x : Char} {o : Option (List Char)} (ho : ∀ w, o = some w → All isSpace w)
    {a : Re} {l : List Re} {v rest : List Char} {c c' : Caps}
    (h1 : HeadNot (fun y => y == x) (v ++ rest)) (h2 : HeadNot isSpace (v ++ rest))
    (h : Eats (Re.seqs (a :: l)) v rest c c') :
    Eats (Re.seqs (.opt (Re.lit x) :: Re.ws :: a :: l)) (starText x o ++ v) rest c c' := by
  cases o with
  | none =>
    exact Eats.seqs (u := []) (Eats.optLitSkip h1) (Eats.seqs (u := []) (Eats.ws All.nil h2) h)
  | some w =>
    show Eats _ (x :: w ++ v) rest c c'
    exact Eats.seqs (u := [x]) (v := w ++ v) (Eats.opt (Eats.lit x _ _))
      (Eats.seqs (Eats.ws (ho w rfl) h2) h)

theorem Eats.tail (n : Nat) (t : Tail) (c : Caps) :
    Eats (Re.seqs [.opt (Re.lit ')'), Re.ws, .opt (Re.lit '*'), Re.ws, Parse.power n, .eos])
      t.text [] c (powCaps n c t.pow) := by
  have hp : Eats (Re.seqs [Parse.power n, .eos]) (powText t.pow ++ []) [] c (powCaps n c t.pow) :=
    Eats.seqs (Eats.powerOpt n t.pow c) (Eats.one (Eats.eos _))
  rw [List.append_nil] at hp
  unfold Tail.text
  refine Eats.optWs t.close_ws ?_ ?_ (Eats.optWs t.star_ws ?_ ?_ hp)
  all_goals simp only [List.append_nil]
  · exact starText_head _ _ (by decide) (powText_head _ (by decide) (by decide) (by decide))
  · exact starText_head _ _ (by decide) (powText_head _ (by decide) (by decide) (by decide))
  · exact powText_head _ (by decide) (by decide) (by decide)
  · exact powText_head _ (by decide) (by decide) (by decide)

end Verif.Parse
