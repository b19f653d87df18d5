import Verif.Parse.PlusMinus
/-!
# C23: ranges, limits, log-normal notation; C24: what `constraints_from_string` can return
-/
set_option linter.unusedSimpArgs false
set_option linter.unusedVariables false
set_option linter.unusedTactic false
namespace Verif.Parse
open Verif.Py Verif.Py.Re

/-! ## Numbers with sign and exponent -/

/-- An exponent as written: `e-3`, `E+5`. (Specification.) -/
structure ExpLit where
  upper : Bool
  expo : Expo
/-- (Specification.) -/
def ExpLit.char (e : ExpLit) : Char := if e.upper then 'E' else 'e'
/-- (Specification.) -/
def ExpLit.text (e : ExpLit) : List Char := e.char :: e.expo.text
theorem ExpLit.char_eq (e : ExpLit) : e.char = 'e' ∨ e.char = 'E' := by
  unfold ExpLit.char; cases e.upper <;> simp

/-- (Specification.) -/
def optExpText : Option ExpLit → List Char
  | none => []
  | some e => e.text
/-- Power of ten of the optional exponent. (Specification.) -/
def optExpVal : Option ExpLit → ℚ
  | none => 1
  | some e => (10 : ℚ) ^ e.expo.value

/-- A signed number with optional exponent, `-1.5e-3`, as in limits and log-normal notation. (Specification.) -/
structure FNum where
  sign : Sign
  num : Numeral
  exp : Option ExpLit
/-- (Specification.) -/
def FNum.mant (f : FNum) : List Char := f.sign.text ++ f.num.text
/-- (Specification.) -/
def FNum.text (f : FNum) : List Char := f.mant ++ optExpText f.exp
/-- (Specification.) -/
def FNum.value (f : FNum) : ℚ := f.sign.val * (f.num.value * optExpVal f.exp)

/-- The captures of the groups `a` (mantissa) and `b` (exponent). (Specification.) -/
def expCaps (c : Caps) (a b : Nat) (m : List Char) : Option ExpLit → Caps
  | none => c.set a m
  | some e => (c.set a m).set b e.text

theorem float_exp (s : Sign) (n : Numeral) (o : Option ExpLit) :
    floatFin (s.text ++ n.text ++ optExpText o) = .ok (s.val * (n.value * optExpVal o)) := by
  have h := floatFin_numeral [] All.nil s n (o := o.map fun e => (e.char, e.expo)) (by
    intro x e h
    cases o with
    | none => cases h
    | some e' => simp at h; rw [← h.1]; exact e'.char_eq)
  cases o with
  | none => simpa [optExpText, optExpVal, expText, expInt] using h
  | some e => simpa [optExpText, optExpVal, expText, expInt, ExpLit.text] using h

theorem floatExp_caps (c : Caps) {a b : Nat} (hab : a ≠ b) (hb : c.get? b = none) (s : Sign) (n : Numeral)
    (o : Option ExpLit) : floatExp (expCaps c a b (s.text ++ n.text) o) a b =
      .ok (s.val * (n.value * optExpVal o)) := by
  cases o with
  | none =>
    have h := float_exp s n none
    simp only [optExpText, List.append_nil] at h
    simp [floatExp, expCaps, Dict.get?_set, hab, hab.symm, hb, group, h]
  | some e =>
    have h := float_exp s n (some e)
    simp only [optExpText, List.append_assoc] at h
    simp [floatExp, expCaps, Dict.get?_set, hab, hab.symm, hb, group, h]

theorem Eats.smant (s : Sign) (n : Numeral) {rest : List Char} {c : Caps} (h : EndsNum n rest) :
    Eats (.seq Parse.optSign Re.num) (s.text ++ n.text) rest c c := by
  refine Eats.seq ?_ (Eats.num n h)
  obtain ⟨x, t, hx, hd⟩ := n.head_digit rest
  rw [hx]
  exact Eats.optSign s t c hd

theorem optExp_head (o : Option ExpLit) {rest : List Char} {p : Char → Bool} (h1 : p 'e' = false)
    (h2 : p 'E' = false) (hr : HeadNot p rest) : HeadNot p (optExpText o ++ rest) := by
  cases o with
  | none => exact hr
  | some e => rcases e.char_eq with h | h <;> simp only [optExpText, ExpLit.text, h] <;>
      apply headNot_cons <;> assumption

/-- An optional exponent group. -/
theorem Eats.optExp (c : Caps) (b : Nat) (o : Option ExpLit) {rest : List Char}
    (hd : HeadNot isDigit rest) (he : HeadNot (fun c => c == 'e' || c == 'E') rest) :
    Eats (.opt (.grp b Parse.expo)) (optExpText o) rest c
      (match o with | none => c | some e => c.set b e.text) := by
  cases o with
  | none =>
    refine Eats.optSkip fun k => ?_
    rw [run_grp]
    unfold Parse.expo
    rw [run_seqs_cons, run_chr_headNot he]
  | some e => exact Eats.opt (Eats.grp (Eats.expo e.char_eq e.expo hd))

theorem expCaps_eq (c : Caps) (a b : Nat) (m : List Char) (o : Option ExpLit) :
    (match o with | none => c.set a m | some e => (c.set a m).set b e.text) = expCaps c a b m o := by
  cases o <;> rfl

/-- `([-+]?\d+\.?\d*)([eE][-+]?\d+)?\s*` -/
theorem Eats.fnum (f : FNum) {w : List Char} (hw : All isSpace w) (a b : Nat) {y : Re} {l : List Re}
    {v rest : List Char} {c c' : Caps} (h1 : HeadNot isSpace (v ++ rest)) (h2 : HeadNot isDigit (v ++ rest))
    (h3 : HeadNot (fun y => y == '.') (v ++ rest))
    (h4 : HeadNot (fun c => c == 'e' || c == 'E') (v ++ rest))
    (h : Eats (Re.seqs (y :: l)) v rest (expCaps c a b f.mant f.exp) c') :
    Eats (Re.seqs (.grp a (.seq Parse.optSign Re.num) :: .opt (.grp b Parse.expo) :: Re.ws :: y :: l))
      (f.mant ++ (optExpText f.exp ++ (w ++ v))) rest c c' := by
  have sp_e : ∀ c, isSpace c = true → (c == 'e' || c == 'E') = false := by
    intro c hc; rw [space_ne (by decide) c hc, space_ne (by decide) c hc]; rfl
  have hd : HeadNot isDigit (w ++ v ++ rest) := by
    rw [List.append_assoc]; exact HeadNot.append (space_not hw space_not_digit) h2
  have hdot : HeadNot (fun y => y == '.') (w ++ v ++ rest) := by
    rw [List.append_assoc]; exact HeadNot.append (space_not hw (space_ne (by decide))) h3
  have he : HeadNot (fun c => c == 'e' || c == 'E') (w ++ v ++ rest) := by
    rw [List.append_assoc]; exact HeadNot.append (space_not hw sp_e) h4
  refine Eats.seqs (c1 := c.set a f.mant) (Eats.grp (Eats.smant _ _ ?_))
    (Eats.seqs (c1 := expCaps c a b f.mant f.exp) ?_ (Eats.seqs (Eats.ws hw h1) h))
  · rw [List.append_assoc]
    exact EndsNum.of (optExp_head _ (by decide) (by decide) hd) (optExp_head _ (by decide) (by decide) hdot)
  · rw [← expCaps_eq]
    exact Eats.optExp _ b f.exp hd he

/-- A range boundary: optional minus, number, optional exponent (possibly after white space), white
space. (Specification.) -/
structure RNum where
  num : SNumeral
  exp : Option (List Char × ExpLit)
  trail : List Char
  exp_ws : ∀ w e, exp = some (w, e) → All isSpace w
  trail_ws : All isSpace trail
/-- (Specification.) -/
def RNum.expL (r : RNum) : Option ExpLit := r.exp.map Prod.snd
/-- (Specification.) -/
def RNum.text (r : RNum) : List Char :=
  r.num.text ++ ((match r.exp with | none => [] | some (w, e) => w ++ e.text) ++ r.trail)
/-- (Specification.) -/
def RNum.value (r : RNum) : ℚ := r.num.value * optExpVal r.expL

theorem RNum.eats (r : RNum) (a b : Nat) {y : Re} {l : List Re}
    {v rest : List Char} {c c' : Caps} (h1 : HeadNot isSpace (v ++ rest)) (h2 : HeadNot isDigit (v ++ rest))
    (h3 : HeadNot (fun y => y == '.') (v ++ rest))
    (h4 : HeadNot (fun c => c == 'e' || c == 'E') (v ++ rest))
    (h : Eats (Re.seqs (y :: l)) v rest (expCaps c a b r.num.text r.expL) c') :
    Eats (Re.seqs (.grp a Parse.snum :: Re.ws :: .opt (.grp b Parse.expo) :: Re.ws :: y :: l))
      (r.text ++ v) rest c c' := by
  obtain ⟨num, exp, trail, ews, tws⟩ := r
  cases exp with
  | none =>
    simp only [RNum.text, List.nil_append, List.append_assoc]
    refine Eats.seqs (c1 := c.set a num.text) (Eats.grp (Eats.snum _ ?_)) (Eats.seqs (Eats.ws tws h1)
      (Eats.seqs (u := []) (Eats.optExp _ b none h2 h4) (Eats.seqs (u := []) (Eats.ws All.nil h1) h)))
    rw [List.append_assoc]; exact EndsNum.ws tws (EndsNum.of h2 h3)
  | some p =>
    obtain ⟨w, e⟩ := p
    have hw := ews w e rfl
    simp only [RNum.text, List.append_assoc]
    have hd : HeadNot isDigit (trail ++ v ++ rest) := by
      rw [List.append_assoc]; exact HeadNot.append (space_not tws space_not_digit) h2
    refine Eats.seqs (c1 := c.set a num.text) (Eats.grp (Eats.snum _ ?_)) (Eats.seqs (Eats.ws hw ?_)
      (Eats.seqs (u := e.text) (Eats.opt (Eats.grp (Eats.expo e.char_eq e.expo hd)))
        (Eats.seqs (Eats.ws tws h1) h)))
    · rw [List.append_assoc]
      refine EndsNum.ws hw ?_
      have := e.char_eq
      unfold ExpLit.text
      rcases this with h | h <;> rw [h] <;> exact EndsNum.cons (by decide) (by decide)
    · have := e.char_eq
      unfold ExpLit.text
      rcases this with h | h <;> rw [h] <;> exact headNot_cons (by decide)

theorem snum_sign (n : SNumeral) : n.text = (if n.neg then Sign.minus else .none).text ++ n.num.text ∧
    n.value = (if n.neg then Sign.minus else .none).val * n.num.value := by
  unfold SNumeral.text SNumeral.value
  cases n.neg <;> simp [Sign.text, Sign.val]

theorem RNum.float (r : RNum) (c : Caps) {a b : Nat} (hab : a ≠ b) (hb : c.get? b = none) :
    floatExp (expCaps c a b r.num.text r.expL) a b = .ok r.value := by
  obtain ⟨h1, h2⟩ := snum_sign r.num
  rw [h1, floatExp_caps c hab hb]
  unfold RNum.value
  rw [h2, mul_assoc]

/-! ## Ranges -/

/-- `[lo, hi] * 10^x` (Specification.) -/
structure RangeStr where
  w0 : List Char
  w1 : List Char
  lo : RNum
  w2 : List Char
  hi : RNum
  w3 : List Char
  star : Option (List Char)
  pow : Option Power
  ws0 : All isSpace w0
  ws1 : All isSpace w1
  ws2 : All isSpace w2
  ws3 : All isSpace w3
  star_ws : ∀ w, star = some w → All isSpace w
/-- (Specification.) -/
def RangeStr.text (b : RangeStr) : List Char :=
  b.w0 ++ (['['] ++ (b.w1 ++ (b.lo.text ++ ([','] ++ (b.w2 ++ (b.hi.text ++ ([']'] ++
    (b.w3 ++ (starText '*' b.star ++ powText b.pow)))))))))

/-- (Specification.) -/
def RangeStr.caps (b : RangeStr) : Caps :=
  powCaps 5 (expCaps (expCaps [] 1 2 b.lo.num.text b.lo.expL) 3 4 b.hi.num.text b.hi.expL) b.pow

theorem RNum.text_head (r : RNum) {p : Char → Bool} (hp : ∀ c, isDigit c = true → p c = false)
    (hm : p '-' = false) (rest : List Char) : HeadNot p (r.text ++ rest) := by
  unfold RNum.text
  rw [List.append_assoc]
  exact snum_headNot _ hp hm _

theorem RangeStr.match (b : RangeStr) : pmatch patRange b.text = some ([], b.caps) := by
  apply Eats.pmatch
  unfold patRange RangeStr.text RangeStr.caps
  have hp : ∀ c, Eats (Re.seqs [Parse.power 5, .eos]) (powText b.pow ++ []) [] c (powCaps 5 c b.pow) :=
    fun c => Eats.seqs (Eats.powerOpt 5 b.pow c) (Eats.one (Eats.eos _))
  simp only [List.append_nil] at hp
  refine Eats.seqs (Eats.ws b.ws0 (headNot_cons (by decide))) (Eats.seqs (Eats.lit '[' _ _)
    (Eats.seqs (Eats.ws b.ws1 ?_) (RNum.eats b.lo 1 2 (headNot_cons (by decide)) (headNot_cons (by decide))
      (headNot_cons (by decide)) (headNot_cons (by decide)) (Eats.seqs (Eats.lit ',' _ _)
      (Eats.seqs (Eats.ws b.ws2 ?_) (RNum.eats b.hi 3 4 (headNot_cons (by decide)) (headNot_cons (by decide))
      (headNot_cons (by decide)) (headNot_cons (by decide)) (Eats.seqs (Eats.lit ']' _ _)
      (Eats.seqs (Eats.ws b.ws3 ?_) (Eats.optWs b.star_ws ?_ ?_ (hp _))))))))))
  · rw [List.append_assoc]; exact b.lo.text_head (fun c hc => isDigit_not_space hc) (by decide) _
  · rw [List.append_assoc]; exact b.hi.text_head (fun c hc => isDigit_not_space hc) (by decide) _
  · simp only [List.append_nil]
    exact starText_head _ _ (by decide) (powText_head _ (by decide) (by decide) (by decide))
  · simp only [List.append_nil]
    exact powText_head _ (by decide) (by decide) (by decide)
  · simp only [List.append_nil]
    exact powText_head _ (by decide) (by decide) (by decide)

theorem expCaps_get (c : Caps) {a b k : Nat} (ha : k ≠ a) (hb : k ≠ b) (m : List Char) (o : Option ExpLit) :
    (expCaps c a b m o).get? k = c.get? k := by
  cases o <;> simp [expCaps, Dict.get?_set, ha, hb, Ne.symm ha, Ne.symm hb]
theorem powCaps_get (c : Caps) {n k : Nat} (h : k ≠ n) (o : Option Power) :
    (powCaps n c o).get? k = c.get? k := by
  cases o <;> simp [powCaps, Dict.get?_set, h, Ne.symm h]
theorem floatExp_congr {c c' : Caps} {a b : Nat} (h1 : c.get? a = c'.get? a) (h2 : c.get? b = c'.get? b) :
    floatExp c a b = floatExp c' a b := by
  unfold floatExp group; rw [h1, h2]

theorem RangeStr.floats (b : RangeStr) : floatExp b.caps 1 2 = .ok b.lo.value ∧
    floatExp b.caps 3 4 = .ok b.hi.value ∧ overallFactor b.caps 5 = .ok (powVal b.pow) := by
  refine ⟨?_, ?_, ?_⟩
  · rw [← b.lo.float [] (a := 1) (b := 2) (by decide) rfl]
    apply floatExp_congr <;> unfold RangeStr.caps <;>
      rw [powCaps_get _ (by decide), expCaps_get _ (by decide) (by decide)]
  · rw [← b.hi.float (expCaps [] 1 2 b.lo.num.text b.lo.expL) (a := 3) (b := 4) (by decide)
      (by rw [expCaps_get _ (by decide) (by decide)]; rfl)]
    apply floatExp_congr <;> unfold RangeStr.caps <;> rw [powCaps_get _ (by decide)]
  · unfold RangeStr.caps
    apply overallFactor_pow
    rw [expCaps_get _ (by decide) (by decide), expCaps_get _ (by decide) (by decide)]; rfl

/-- statistics/probability.py l.151-153: the range (= support) of a uniform distribution.
Used for /repo/flavio/statistics/probability.py:151-153. -/
def uniformRange (central half : ℚ) : ℚ × ℚ := (central - half, central + half)

theorem ok_bind' {α β : Type} (a : α) (f : α → Except PyErr β) : (Except.ok a >>= f) = f a := rfl

theorem RangeStr.from (b : RangeStr) : rangeFromString b.text =
    if b.hi.value < b.lo.value then .error .valueError
    else .ok ((powVal b.pow * b.hi.value + powVal b.pow * b.lo.value) / 2,
      (powVal b.pow * b.hi.value - powVal b.pow * b.lo.value) / 2) := by
  obtain ⟨h1, h2, h3⟩ := b.floats
  unfold rangeFromString
  rw [b.match]
  simp only
  rw [h1, h2, ok_bind', ok_bind', h3]
  rfl

/-- (Specification.) -/
def numLike (x : Char) : Prop := isSpace x = true ∨ isNumChar x = true

theorem sign_text_chars (n : SNumeral) : All isNumChar n.text := by
  rw [(snum_sign n).1]
  exact (Sign.text_numChar _).append n.num.text_numChar
theorem explit_chars (e : ExpLit) : All isNumChar e.text := by
  unfold ExpLit.text
  refine All.cons ?_ e.expo.text_numChar
  rcases e.char_eq with h | h <;> rw [h] <;> decide

theorem rnum_chars (r : RNum) {x : Char} (hx : x ∈ r.text) : numLike x := by
  obtain ⟨num, exp, trail, ews, tws⟩ := r
  simp only [RNum.text, List.mem_append] at hx
  rcases hx with h | h | h
  · exact Or.inr (sign_text_chars _ x h)
  · cases exp with
    | none => simp at h
    | some p =>
      simp only [List.mem_append] at h
      rcases h with h | h
      · exact Or.inl (ews _ _ rfl x h)
      · exact Or.inr (explit_chars _ x h)
  · exact Or.inl (tws x h)

theorem starPow_chars (star : Option (List Char)) (pow : Option Power)
    (hs : ∀ w, star = some w → All isSpace w) {x : Char}
    (h : x ∈ starText '*' star ++ powText pow) : tailChar x :=
  tail_chars ⟨none, star, pow, by simp, hs⟩ (by simpa [Tail.text, starText] using h)

theorem range_chars (b : RangeStr) {x : Char} (hx : x ∈ b.text) :
    tailChar x ∨ x = '[' ∨ x = ',' ∨ x = ']' := by
  have nl : ∀ {x}, numLike x → tailChar x := fun h => by rcases h with h | h <;> simp [tailChar, h]
  unfold RangeStr.text at hx
  simp only [List.mem_append, List.mem_singleton] at hx
  rcases hx with h | rfl | h | h | rfl | h | h | rfl | h | h
  · exact Or.inl (Or.inl (b.ws0 x h))
  · simp
  · exact Or.inl (Or.inl (b.ws1 x h))
  · exact Or.inl (nl (rnum_chars _ h))
  · simp
  · exact Or.inl (Or.inl (b.ws2 x h))
  · exact Or.inl (nl (rnum_chars _ h))
  · simp
  · exact Or.inl (Or.inl (b.ws3 x h))
  · exact Or.inl (starPow_chars _ _ b.star_ws (List.mem_append.2 h))

/-- **C23** `[lo, hi] * 10^x`: `constraints_from_string` raises `ValueError` if `hi < lo`, otherwise it
gives one uniform distribution whose range is exactly `[lo·10^x, hi·10^x]`. -/
theorem C23_range (b : RangeStr) :
    (b.hi.value < b.lo.value → constraintsFromString b.text = .error .valueError) ∧
    (b.lo.value ≤ b.hi.value → ∃ c h, constraintsFromString b.text = .ok (.list [.uniform c h]) ∧
      uniformRange c h = (b.lo.value * powVal b.pow, b.hi.value * powVal b.pow)) := by
  have hc : ∀ y : Char, isSpace y = false → isNumChar y = false → y ≠ ')' → y ≠ '*' → y ≠ '(' → y ≠ '^' →
      y ≠ '[' → y ≠ ',' → y ≠ ']' → y ∉ b.text := by
    intro y h1 h2 h3 h4 h5 h6 h7 h8 h9 h
    rcases range_chars b h with h | h | h | h
    · exact tailChar_not h h1 h2 h3 h4 h5 h6 rfl
    all_goals contradiction
  obtain ⟨e, he⟩ := pyFloat_bad (c := '[') (s := b.text) (by decide) (by simp [RangeStr.text])
  have hd : '−' ∉ b.text := by apply hc <;> decide
  have n1 := pmatch_none_of_needs needs_upperlimit (s := b.text)
    (fun x hx => by rintro rfl; revert hx; apply hc <;> decide)
  have key : constraintsFromString b.text = (do
      let r ← rangeFromString b.text
      .ok (.list [.uniform r.1 r.2])) := by
    unfold constraintsFromString
    simp only [he, replaceDash_id hd, n1, b.match, Option.isSome_none, Option.isSome_some, if_true]
    rfl
  rw [key, b.from]
  constructor
  · intro h; rw [if_pos h]; rfl
  · intro h
    rw [if_neg (not_lt.2 h)]
    refine ⟨_, _, rfl, ?_⟩
    unfold uniformRange
    simp only [Prod.mk.injEq]
    constructor <;> ring

/-! ## Upper limits -/

/-- `.` or white space. (Specification.) -/
def dotSpace (c : Char) : Bool := c == '.' || isSpace c

/-- `< 5.3e-8 @ 95 % C.L.` (Specification.) -/
structure LimitStr where
  w0 : List Char
  w1 : List Char
  lim : FNum
  w2 : List Char
  w3 : List Char
  pct : Numeral
  w4 : List Char
  w5 : List Char
  d1 : List Char
  d2 : List Char
  ws0 : All isSpace w0
  ws1 : All isSpace w1
  ws2 : All isSpace w2
  ws3 : All isSpace w3
  ws4 : All isSpace w4
  ws5 : All isSpace w5
  hd1 : All dotSpace d1
  hd2 : All dotSpace d2
/-- (Specification.) -/
def LimitStr.text (b : LimitStr) : List Char :=
  b.w0 ++ (['<'] ++ (b.w1 ++ (b.lim.mant ++ (optExpText b.lim.exp ++ (b.w2 ++ (['@'] ++ (b.w3 ++
    (b.pct.text ++ (b.w4 ++ (['%'] ++ (b.w5 ++ (['C'] ++ (b.d1 ++ (['L'] ++ b.d2))))))))))))))
/-- (Specification.) -/
def LimitStr.caps (b : LimitStr) : Caps := (expCaps [] 1 2 b.lim.mant b.lim.exp).set 3 b.pct.text

theorem mant_head (f : FNum) {p : Char → Bool} (hp : ∀ c, isDigit c = true → p c = false)
    (hm : p '-' = false) (hpl : p '+' = false) (rest : List Char) : HeadNot p (f.mant ++ rest) := by
  unfold FNum.mant
  cases f.sign
  · simpa [Sign.text] using digit_headNot_text f.num hp rest
  · exact headNot_cons hpl
  · exact headNot_cons hm

theorem LimitStr.match (b : LimitStr) : pmatch patUpperlimit b.text = some ([], b.caps) := by
  apply Eats.pmatch
  unfold patUpperlimit LimitStr.text LimitStr.caps
  have h2 : Eats (Re.seqs [.star (.chr dotSpace), .eos]) (b.d2 ++ []) [] b.caps b.caps :=
    Eats.seqs (Eats.starChr b.hd2 (headNot_nil _)) (Eats.one (Eats.eos _))
  rw [List.append_nil] at h2
  refine Eats.seqs (Eats.ws b.ws0 (headNot_cons (by decide))) (Eats.seqs (Eats.lit '<' _ _)
    (Eats.seqs (Eats.ws b.ws1 ?_) (Eats.fnum b.lim b.ws2 1 2 (headNot_cons (by decide))
      (headNot_cons (by decide)) (headNot_cons (by decide)) (headNot_cons (by decide))
      (Eats.seqs (Eats.lit '@' _ _) (Eats.seqs (Eats.ws b.ws3 ?_) (Eats.seqs (c1 := b.caps)
        (Eats.grp (Eats.num _ ?_)) (Eats.seqs (Eats.ws b.ws4 (headNot_cons (by decide)))
        (Eats.seqs (Eats.lit '%' _ _) (Eats.seqs (Eats.ws b.ws5 (headNot_cons (by decide)))
        (Eats.seqs (Eats.lit 'C' _ _) (Eats.seqs (Eats.starChr (p := dotSpace) b.hd1
          (headNot_cons (by decide))) (Eats.seqs (Eats.lit 'L' _ _) h2))))))))))))
  · rw [List.append_assoc]
    exact mant_head _ (fun c hc => isDigit_not_space hc) (by decide) (by decide) _
  · rw [List.append_assoc]; exact digit_headNot_text _ (fun c hc => isDigit_not_space hc) _
  · rw [List.append_assoc]; exact EndsNum.ws b.ws4 (EndsNum.cons (by decide) (by decide))

theorem optExp_chars (o : Option ExpLit) : All isNumChar (optExpText o) := by
  cases o with
  | none => exact All.nil
  | some e => exact explit_chars e
theorem mant_chars (f : FNum) : All isNumChar f.mant := (Sign.text_numChar _).append f.num.text_numChar

theorem limit_chars (b : LimitStr) {x : Char} (hx : x ∈ b.text) :
    numLike x ∨ x = '<' ∨ x = '@' ∨ x = '%' ∨ x = 'C' ∨ x = 'L' := by
  have ds : ∀ l, All dotSpace l → x ∈ l → numLike x := by
    intro l hl hx
    have := hl x hx
    simp [dotSpace] at this
    rcases this with rfl | h
    · right; decide
    · exact Or.inl h
  unfold LimitStr.text at hx
  simp only [List.mem_append, List.mem_singleton] at hx
  rcases hx with h | rfl | h | h | h | h | rfl | h | h | h | rfl | h | rfl | h | rfl | h
  · exact Or.inl (Or.inl (b.ws0 x h))
  · simp
  · exact Or.inl (Or.inl (b.ws1 x h))
  · exact Or.inl (Or.inr (mant_chars _ x h))
  · exact Or.inl (Or.inr (optExp_chars _ x h))
  · exact Or.inl (Or.inl (b.ws2 x h))
  · simp
  · exact Or.inl (Or.inl (b.ws3 x h))
  · exact Or.inl (Or.inr (b.pct.text_numChar x h))
  · exact Or.inl (Or.inl (b.ws4 x h))
  · simp
  · exact Or.inl (Or.inl (b.ws5 x h))
  · simp
  · exact Or.inl (ds _ b.hd1 h)
  · simp
  · exact Or.inl (ds _ b.hd2 h)

theorem LimitStr.from (b : LimitStr) :
    limitFromString b.text = .ok (b.lim.value, b.pct.value / 100) := by
  have h1 : floatExp b.caps 1 2 = .ok b.lim.value := by
    rw [show b.lim.value = b.lim.sign.val * (b.lim.num.value * optExpVal b.lim.exp) from rfl,
      ← floatExp_caps [] (a := 1) (b := 2) (by decide) rfl b.lim.sign b.lim.num b.lim.exp]
    apply floatExp_congr <;> unfold LimitStr.caps <;> simp [Dict.get?_set, FNum.mant]
  have h2 : group b.caps 3 = [] ++ b.pct.text := by simp [group, LimitStr.caps]
  unfold limitFromString
  rw [b.match]
  simp only
  rw [h1, ok_bind', h2, b.pct.float [] All.nil]
  rfl

/-- **C23** `< l @ p % CL`: `limit_from_string` gives `(l, p/100)`; `constraints_from_string` gives the
one distribution `GaussianUpperLimit(l, p/100)` when `0 < l` and `p < 100`, else `ValueError`. -/
theorem C23_limit (b : LimitStr) :
    limitFromString b.text = .ok (b.lim.value, b.pct.value / 100) ∧
    (0 < b.lim.value → b.pct.value < 100 →
      constraintsFromString b.text = .ok (.list [.gaussianUpperLimit b.lim.value (b.pct.value / 100)])) ∧
    (b.lim.value ≤ 0 ∨ 100 ≤ b.pct.value → constraintsFromString b.text = .error .valueError) := by
  have hc : ∀ y : Char, isSpace y = false → isNumChar y = false →
      y ≠ '<' → y ≠ '@' → y ≠ '%' → y ≠ 'C' → y ≠ 'L' → y ∉ b.text := by
    intro y h1 h2 h3 h4 h5 h6 h7 h
    rcases limit_chars b h with (h | h) | h | h | h | h | h
    · rw [h] at h1; cases h1
    · rw [h] at h2; cases h2
    all_goals contradiction
  have hp : 0 ≤ b.pct.value := by
    unfold Numeral.value; positivity
  obtain ⟨e, he⟩ := pyFloat_bad (c := '<') (s := b.text) (by decide) (by simp [LimitStr.text])
  have hd : '−' ∉ b.text := by apply hc <;> decide
  have key : constraintsFromString b.text = (do
      let d ← mkUpperLimit b.lim.value (b.pct.value / 100)
      .ok (.list [d])) := by
    unfold constraintsFromString
    simp only [he, replaceDash_id hd, b.match, Option.isSome_some, if_true, b.from]
    rfl
  refine ⟨b.from, fun h1 h2 => ?_, fun h => ?_⟩
  · rw [key]
    have a1 : ¬ (b.pct.value / 100 > 1 ∨ b.pct.value / 100 < 0) := by
      rintro (h | h)
      · have : b.pct.value / 100 < 1 := by rw [div_lt_one (by norm_num)]; exact h2
        exact absurd h (not_lt.2 this.le)
      · exact absurd h (not_lt.2 (by positivity))
    have a2 : ¬ b.pct.value / 100 = 1 := by
      rw [div_eq_one_iff_eq (by norm_num)]; exact h2.ne
    unfold mkUpperLimit
    rw [if_neg a1, if_neg (not_le.2 h1), if_neg a2]
    rfl
  · rw [key]
    unfold mkUpperLimit
    rcases h with h | h
    · rw [if_pos h]; split <;> rfl
    · rcases h.eq_or_lt with h | h
      · rw [← h]; norm_num
        try rfl
      · have : b.pct.value / 100 > 1 := by
          rw [gt_iff_lt, one_lt_div (by norm_num)]; exact h
        rw [if_pos (Or.inl this)]; rfl

/-! ## Log-normal -/

/-- `1.67e-3 */ 1.5` (Specification.) -/
structure TimesStr where
  w0 : List Char
  cv : FNum
  w1 : List Char
  slashFirst : Bool
  w2 : List Char
  fac : Numeral
  ws0 : All isSpace w0
  ws1 : All isSpace w1
  ws2 : All isSpace w2
/-- (Specification.) -/
def TimesStr.sep (b : TimesStr) : List Char := if b.slashFirst then ['/', '*'] else ['*', '/']
/-- (Specification.) -/
def TimesStr.text (b : TimesStr) : List Char :=
  b.w0 ++ (b.cv.mant ++ (optExpText b.cv.exp ++ (b.w1 ++ (b.sep ++ (b.w2 ++ b.fac.text)))))
/-- (Specification.) -/
def TimesStr.caps (b : TimesStr) : Caps := (expCaps [] 1 2 b.cv.mant b.cv.exp).set 3 b.fac.text

theorem TimesStr.match (b : TimesStr) : pmatch patTimesby b.text = some ([], b.caps) := by
  apply Eats.pmatch
  unfold patTimesby TimesStr.text TimesStr.caps
  have hsep : ∀ p : Char → Bool, p '/' = false → p '*' = false →
      HeadNot p (b.sep ++ (b.w2 ++ b.fac.text) ++ []) := by
    intro p h1 h2
    unfold TimesStr.sep
    cases b.slashFirst
    · exact headNot_cons h2
    · exact headNot_cons h1
  have hl : Eats (Re.seqs [.grp 3 num, .eos]) (b.fac.text ++ []) []
      (expCaps [] 1 2 b.cv.mant b.cv.exp) b.caps :=
    Eats.seqs (c1 := b.caps) (Eats.grp (Eats.num _ EndsNum.nil)) (Eats.one (Eats.eos _))
  rw [List.append_nil] at hl
  refine Eats.seqs (Eats.ws b.ws0 ?_) (Eats.fnum b.cv b.ws1 1 2 (hsep _ (by decide) (by decide))
    (hsep _ (by decide) (by decide)) (hsep _ (by decide) (by decide)) (hsep _ (by decide) (by decide))
    (Eats.seqs ?_ (Eats.seqs (Eats.ws b.ws2 ?_) hl)))
  · rw [List.append_assoc]
    exact mant_head _ (fun c hc => isDigit_not_space hc) (by decide) (by decide) _
  · unfold TimesStr.sep
    cases b.slashFirst
    · exact Eats.altL (Eats.seqs (u := ['*']) (v := ['/']) (Eats.lit _ _ _) (Eats.one (Eats.lit _ _ _)))
    · refine Eats.altR (fun k => by simp [Re.seqs, Re.lit, run]) ?_
      exact Eats.seqs (u := ['/']) (v := ['*']) (Eats.lit _ _ _) (Eats.one (Eats.lit _ _ _))
  · exact digit_headNot_text _ (fun c hc => isDigit_not_space hc) _

theorem times_chars (b : TimesStr) {x : Char} (hx : x ∈ b.text) : numLike x ∨ x = '*' ∨ x = '/' := by
  unfold TimesStr.text at hx
  simp only [List.mem_append] at hx
  rcases hx with h | h | h | h | h | h | h
  · exact Or.inl (Or.inl (b.ws0 x h))
  · exact Or.inl (Or.inr (mant_chars _ x h))
  · exact Or.inl (Or.inr (optExp_chars _ x h))
  · exact Or.inl (Or.inl (b.ws1 x h))
  · unfold TimesStr.sep at h
    revert h; cases b.slashFirst <;> simp <;> tauto
  · exact Or.inl (Or.inl (b.ws2 x h))
  · exact Or.inl (Or.inr (b.fac.text_numChar x h))

/-- **C23** `c */ f` (or `c /* f`): `lognormal_from_string` gives `(c, f)`; `constraints_from_string` gives
the one distribution `LogNormalDistribution(c, f)` when `c ≠ 0` and `1 < f`, else `ValueError`. -/
theorem C23_lognormal (b : TimesStr) :
    lognormalFromString b.text = .ok (b.cv.value, b.fac.value) ∧
    (b.cv.value ≠ 0 → 1 < b.fac.value →
      constraintsFromString b.text = .ok (.list [.logNormal b.cv.value b.fac.value])) ∧
    (b.cv.value = 0 ∨ b.fac.value ≤ 1 → constraintsFromString b.text = .error .valueError) := by
  have hc : ∀ y : Char, isSpace y = false → isNumChar y = false → y ≠ '*' → y ≠ '/' → y ∉ b.text := by
    intro y h1 h2 h3 h4 h
    rcases times_chars b h with (h | h) | h | h
    · rw [h] at h1; cases h1
    · rw [h] at h2; cases h2
    all_goals contradiction
  have hfrom : lognormalFromString b.text = .ok (b.cv.value, b.fac.value) := by
    have h1 : floatExp b.caps 1 2 = .ok b.cv.value := by
      rw [show b.cv.value = b.cv.sign.val * (b.cv.num.value * optExpVal b.cv.exp) from rfl,
        ← floatExp_caps [] (a := 1) (b := 2) (by decide) rfl b.cv.sign b.cv.num b.cv.exp]
      apply floatExp_congr <;> unfold TimesStr.caps <;> simp [Dict.get?_set, FNum.mant]
    have h2 : group b.caps 3 = [] ++ b.fac.text := by simp [group, TimesStr.caps]
    unfold lognormalFromString
    rw [b.match]
    simp only
    rw [h1, ok_bind', h2, b.fac.float [] All.nil]
    rfl
  have hslash : '/' ∈ b.text := by
    unfold TimesStr.text TimesStr.sep
    cases b.slashFirst <;> simp
  obtain ⟨e, he⟩ := pyFloat_bad (c := '/') (s := b.text) (by decide) hslash
  have hd : '−' ∉ b.text := by apply hc <;> decide
  have n1 := pmatch_none_of_needs needs_upperlimit (s := b.text)
    (fun x hx => by rintro rfl; revert hx; apply hc <;> decide)
  have n2 := pmatch_none_of_needs needs_range (s := b.text)
    (fun x hx => by rintro rfl; revert hx; apply hc <;> decide)
  have key : constraintsFromString b.text = (do
      let d ← mkLogNormal b.cv.value b.fac.value
      .ok (.list [d])) := by
    unfold constraintsFromString
    simp only [he, replaceDash_id hd, n1, n2, b.match, Option.isSome_none, Option.isSome_some, if_true, hfrom]
    rfl
  refine ⟨hfrom, fun h1 h2 => ?_, fun h => ?_⟩
  · rw [key]; unfold mkLogNormal; rw [if_neg h1, if_neg (not_le.2 h2)]; rfl
  · rw [key]; unfold mkLogNormal
    by_cases h0 : b.cv.value = 0
    · rw [if_pos h0]; rfl
    · rw [if_neg h0, if_pos (h.resolve_left h0)]; rfl

/-! ### Concrete instances -/

/-- (Specification.) -/
def digN (l : List Char) (h : l ≠ []) (hd : l.all isDigit = true) : Numeral :=
  ⟨l, none, h, List.all_eq_true.1 hd, by simp⟩

/-- (Specification.) -/
def exRange : RangeStr where
  w0 := []
  w1 := []
  lo := ⟨⟨true, digN ['1'] (by simp) (by decide)⟩, none, [], by simp, All.nil⟩
  w2 := [' ']
  hi := ⟨⟨false, digN ['5'] (by simp) (by decide)⟩, none, [], by simp, All.nil⟩
  w3 := [' ']
  star := none
  pow := some ⟨.oneE, false, ⟨.minus, ['3'], by simp, by unfold All; decide⟩, false⟩
  ws0 := All.nil
  ws1 := All.nil
  ws2 := by unfold All; decide
  ws3 := by unfold All; decide
  star_ws := by simp
example : exRange.text = "[-1, 5] 1e-3".toList := by decide
example : exRange.lo.value ≤ exRange.hi.value := by
  simp [exRange, RNum.value, SNumeral.value, Numeral.value, digN, natVal, digitVal, Numeral.fracDigits,
    RNum.expL, optExpVal]
  norm_num

/-- (Specification.) -/
def exLimit : LimitStr where
  w0 := []
  w1 := [' ']
  lim := ⟨.none, digN ['5'] (by simp) (by decide), some ⟨false, ⟨.minus, ['8'], by simp, by unfold All; decide⟩⟩⟩
  w2 := [' ']
  w3 := [' ']
  pct := digN ['9', '5'] (by simp) (by decide)
  w4 := []
  w5 := [' ']
  d1 := ['.']
  d2 := ['.']
  ws0 := All.nil
  ws1 := by unfold All; decide
  ws2 := by unfold All; decide
  ws3 := by unfold All; decide
  ws4 := All.nil
  ws5 := by unfold All; decide
  hd1 := by unfold All; decide
  hd2 := by unfold All; decide
example : exLimit.text = "< 5e-8 @ 95% C.L.".toList := by decide
example : 0 < exLimit.lim.value ∧ exLimit.pct.value < 100 := by
  simp [exLimit, FNum.value, Numeral.value, digN, natVal, digitVal, Numeral.fracDigits, optExpVal, Sign.val,
    Expo.value, Sign.ival]
  norm_num

/-- (Specification.) -/
def exTimes : TimesStr where
  w0 := []
  cv := ⟨.minus, digN ['2'] (by simp) (by decide), none⟩
  w1 := [' ']
  slashFirst := false
  w2 := [' ']
  fac := digN ['3'] (by simp) (by decide)
  ws0 := All.nil
  ws1 := by unfold All; decide
  ws2 := by unfold All; decide
example : exTimes.text = "-2 */ 3".toList := by decide
example : exTimes.cv.value ≠ 0 ∧ 1 < exTimes.fac.value := by
  simp [exTimes, FNum.value, Numeral.value, digN, natVal, digitVal, Numeral.fracDigits, optExpVal, Sign.val]

end Verif.Parse
