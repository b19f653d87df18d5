import Verif.Parse.Match
/-!
# When `float()` fails, and `re.findall` rules
-/
set_option linter.unusedSimpArgs false
set_option linter.unusedVariables false
namespace Verif.Parse
open Verif.Py Verif.Py.Re

/-- A character that occurs in no string accepted by `float` (among those used by the notations). (Specification.) -/
def isBad (c : Char) : Bool := c == '(' || c == '<' || c == '[' || c == '/' || c == '±' || c == '\\'

theorem bad_cases {c : Char} (h : isBad c = true) :
    c = '(' ∨ c = '<' ∨ c = '[' ∨ c = '/' ∨ c = '±' ∨ c = '\\' := by
  simp [isBad] at h; tauto

theorem bad_facts {c : Char} (h : isBad c = true) : isSpace c = false ∧ c ≠ '_' ∧ c ≠ '-' ∧ c ≠ '+' ∧
    isDigit c = false ∧ c ≠ '.' ∧ c ≠ 'e' ∧ c ≠ 'E' ∧ Char.toLower c ∉ "infinity".toList ∧
    Char.toLower c ∉ "nan".toList ∧ Char.toLower c ∉ "inf".toList := by
  rcases bad_cases h with rfl | rfl | rfl | rfl | rfl | rfl <;> decide

theorem mem_dropWhile {p : Char → Bool} {c : Char} {s : List Char} (h : c ∈ s) (hc : p c = false) :
    c ∈ s.dropWhile p := by
  induction s with
  | nil => exact h
  | cons x s ih =>
    rw [List.dropWhile_cons]
    split
    · rename_i hx
      rcases List.mem_cons.1 h with rfl | h
      · rw [hc] at hx; cases hx
      · exact ih h
    · exact h

theorem mem_strip {c : Char} {s : List Char} (h : c ∈ s) (hc : isSpace c = false) : c ∈ strip s := by
  unfold strip
  rw [List.mem_reverse]
  exact mem_dropWhile (List.mem_reverse.2 (mem_dropWhile h hc)) hc

theorem mem_dropUnderscores {c : Char} (hc : c ≠ '_') (b : Bool) (s t : List Char)
    (h : dropUnderscores b s = some t) (hm : c ∈ s) : c ∈ t := by
  have : ∀ (n : Nat) (s : List Char), s.length ≤ n → c ∈ s → ∀ b t,
      dropUnderscores b s = some t → c ∈ t := by
    intro n
    induction n with
    | zero => intro s hs hm; cases s <;> simp_all
    | succ n ih =>
      intro s hs hm b t h
      unfold dropUnderscores at h
      split at h
      · simp at hm
      · rename_i y s'
        split at h
        · rw [Option.map_eq_some_iff] at h
          obtain ⟨t', ht', rfl⟩ := h
          rcases List.mem_cons.1 hm with rfl | hm
          · exact absurd rfl hc
          · rcases List.mem_cons.1 hm with rfl | hm
            · simp
            · exact List.mem_cons_of_mem _ (ih s' (by simp at hs; omega) hm _ _ ht')
        · cases h
      · rename_i y s' _
        split at h
        · cases h
        · rw [Option.map_eq_some_iff] at h
          obtain ⟨t', ht', rfl⟩ := h
          rcases List.mem_cons.1 hm with rfl | hm
          · simp
          · exact List.mem_cons_of_mem _ (ih s' (by simp at hs; omega) hm _ _ ht')
  exact this s.length s (Nat.le_refl _) hm b t h

theorem mem_takeSign {c : Char} (h1 : c ≠ '-') (h2 : c ≠ '+') {s : List Char} (hm : c ∈ s) :
    c ∈ (takeSign s).2 := by
  unfold takeSign
  split
  · rcases List.mem_cons.1 hm with rfl | h
    · exact absurd rfl h1
    · exact h
  · rcases List.mem_cons.1 hm with rfl | h
    · exact absurd rfl h2
    · exact h
  · exact hm

theorem expVal_bad {c : Char} (hb : isBad c = true) {s : List Char} (hm : c ∈ s) :
    expVal s = .error .valueError := by
  obtain ⟨-, -, h1, h2, h3, -, h4, h5, -⟩ := bad_facts hb
  cases s with
  | nil => simp at hm
  | cons x s =>
    simp only [expVal]
    split
    · rename_i hx
      have hcx : c ≠ x := by rcases hx with rfl | rfl <;> assumption
      have hm' : c ∈ s := by
        rcases List.mem_cons.1 hm with h | h
        · exact absurd h hcx
        · exact h
      have hm2 := mem_takeSign h1 h2 hm'
      rw [if_neg]
      rintro ⟨-, hall⟩
      rw [List.all_eq_true] at hall
      rw [hall c hm2] at h3; cases h3
    · rfl

theorem decVal_bad {c : Char} (hb : isBad c = true) {s : List Char} (hm : c ∈ s) :
    raises (decVal s) := by
  obtain ⟨-, -, h1, h2, h3, h4, -⟩ := bad_facts hb
  have hm1 : c ∈ s.dropWhile isDigit := mem_dropWhile hm h3
  have hm2 : c ∈ afterFrac (s.dropWhile isDigit) := by
    generalize s.dropWhile isDigit = t at hm1
    unfold afterFrac
    split
    · rcases List.mem_cons.1 hm1 with rfl | h
      · exact absurd rfl h4
      · exact mem_dropWhile h h3
    · exact hm1
  unfold decVal
  simp only
  split
  · exact ⟨_, rfl⟩
  · rw [expVal_bad hb hm2]; exact ⟨_, rfl⟩

/-- `float` rejects every string containing a bad character. -/
theorem pyFloat_bad {c : Char} (hb : isBad c = true) {s : List Char} (hm : c ∈ s) :
    raises (pyFloat s) := by
  obtain ⟨h0, hu, h1, h2, h3, h4, -, -, hi, hn, hinf⟩ := bad_facts hb
  have hs := mem_strip hm h0
  unfold pyFloat
  cases hd : dropUnderscores false (strip s) with
  | none => exact ⟨_, rfl⟩
  | some t =>
    have ht := mem_dropUnderscores hu _ _ _ hd hs
    have ht2 := mem_takeSign h1 h2 ht
    have hl : Char.toLower c ∈ (takeSign t).2.map Char.toLower := List.mem_map_of_mem ht2
    simp only
    rw [if_neg (by
      rintro (h | h)
      · rw [h] at hl; exact hinf hl
      · rw [h] at hl; exact hi hl), if_neg (by intro h; rw [h] at hl; exact hn hl)]
    obtain ⟨e, he⟩ := decVal_bad hb ht2
    rw [he]; exact ⟨_, rfl⟩

theorem strip_prefix {w t z : List Char} {x : Char} (hw : All isSpace w) (ht : HeadNot isSpace t)
    (hne : t ≠ []) (hx : isSpace x = false) : ∃ z', strip (w ++ (t ++ x :: z)) = t ++ x :: z' := by
  unfold strip
  have hh : HeadNot isSpace (t ++ x :: z) := by
    cases t with
    | nil => exact absurd rfl hne
    | cons y t => intro a ha; simp at ha; subst ha; exact ht _ rfl
  rw [dropWhile_run w hw hh]
  have : ∃ z', ((t ++ x :: z).reverse.dropWhile isSpace) = z' ++ (t ++ [x]).reverse := by
    have : (t ++ x :: z).reverse = z.reverse ++ (t ++ [x]).reverse := by simp
    rw [this]
    generalize z.reverse = y
    induction y with
    | nil =>
      refine ⟨[], ?_⟩
      simp [hx]
    | cons a y ih =>
      rw [List.cons_append, List.dropWhile_cons]
      split
      · exact ih
      · exact ⟨a :: y, rfl⟩
  obtain ⟨z', hz⟩ := this
  refine ⟨z'.reverse, ?_⟩
  rw [hz]; simp

theorem dropUnderscores_prefix (t z : List Char) (ht : '_' ∉ t) (hne : t ≠ []) (b : Bool) {r : List Char}
    (h : dropUnderscores b (t ++ z) = some r) (hz : z.head? ≠ some '_') : ∃ z', r = t ++ z' ∧
      (∀ x, z.head? = some x → z'.head? = some x) := by
  induction t generalizing b r with
  | nil => exact absurd rfl hne
  | cons c t ih =>
    have hc : c ≠ '_' := fun h => ht (by simp [h])
    rw [List.cons_append] at h
    unfold dropUnderscores at h
    split at h
    · rename_i heq; simp at heq
    · rename_i heq; simp at heq; exact absurd heq.1 hc
    · rename_i heq
      injection heq with h1 h2
      subst h1 h2
      rw [if_neg hc, Option.map_eq_some_iff] at h
      obtain ⟨t', ht', rfl⟩ := h
      cases t with
      | nil =>
        refine ⟨t', by simp, ?_⟩
        intro x hx
        cases z with
        | nil => simp at hx
        | cons y z =>
          simp at hx; subst hx
          rw [List.nil_append] at ht'
          unfold dropUnderscores at ht'
          split at ht'
          · rename_i heq; cases heq
          · rename_i heq; simp at heq; simp [heq.1] at hz
          · rename_i heq
            injection heq with h1 h2
            subst h1 h2
            split at ht'
            · cases ht'
            · rw [Option.map_eq_some_iff] at ht'
              obtain ⟨t'', -, rfl⟩ := ht'
              rfl
      | cons d t =>
        obtain ⟨z', hz', hz2⟩ := ih (fun h => ht (List.mem_cons_of_mem _ h)) (by simp) _ ht'
        exact ⟨z', by simp [hz'], hz2⟩

/-- `float` rejects a number followed (after white space) by a character that cannot continue it. -/
theorem pyFloat_garbage (w0 : List Char) (h0 : All isSpace w0) (n : SNumeral) (w1 : List Char)
    (h1 : All isSpace w1) {x : Char} (hx : isSpace x = false) (hd : isDigit x = false) (hdot : x ≠ '.')
    (he : x ≠ 'e') (hE : x ≠ 'E') (hu : x ≠ '_') (z : List Char) :
    raises (pyFloat (w0 ++ (n.text ++ (w1 ++ x :: z)))) := by
  have hntext : All isNumChar n.text := by
    unfold SNumeral.text
    refine All.append ?_ n.num.text_numChar
    cases n.neg
    · exact All.nil
    · exact All.cons (by decide) All.nil
  have hnne : n.text ≠ [] := by
    unfold SNumeral.text Numeral.text; simp [n.num.int_ne]
  have hhead : HeadNot isSpace (n.text ++ w1) := by
    intro c hc
    have : c ∈ n.text := by
      cases ht : n.text with
      | nil => exact absurd ht hnne
      | cons y t => rw [ht] at hc; simp at hc; simp [hc]
    exact isNumChar_not_space (hntext c this)
  obtain ⟨z', hz'⟩ := strip_prefix (z := z) h0 hhead (by simp [hnne]) hx
  have e1 : w0 ++ (n.text ++ (w1 ++ x :: z)) = w0 ++ ((n.text ++ w1) ++ x :: z) := by simp
  unfold pyFloat
  rw [e1, hz']
  cases hdr : dropUnderscores false (n.text ++ w1 ++ x :: z') with
  | none => exact ⟨_, rfl⟩
  | some r =>
    have hnu : '_' ∉ n.text ++ w1 := by
      intro h
      rcases List.mem_append.1 h with h | h
      · exact isNumChar_ne_underscore (hntext _ h) rfl
      · have := h1 _ h; revert this; decide
    obtain ⟨z2, rfl, hz2⟩ := dropUnderscores_prefix _ _ hnu (by simp [hnne]) _ hdr (by simp [hu])
    have hz2 := hz2 x rfl
    obtain ⟨z3, rfl⟩ : ∃ z3, z2 = x :: z3 := by
      cases z2 with
      | nil => simp at hz2
      | cons a z3 => simp at hz2; exact ⟨z3, by rw [hz2]⟩
    -- sign
    obtain ⟨c, t, hct, hc⟩ := n.num.head_digit (w1 ++ x :: z3)
    have hsign : (takeSign (n.text ++ w1 ++ x :: z3)).2 = n.num.text ++ (w1 ++ x :: z3) := by
      unfold SNumeral.text
      cases n.neg
      · have := takeSign_sign .none t hc
        simp only [Sign.text, List.nil_append] at this
        simp only [Bool.false_eq_true, if_false, List.nil_append, List.append_assoc]
        rw [hct, this]
      · simp [takeSign]
    simp only
    rw [hsign]
    have hlow : ∀ d l, isDigit d = false → Char.toLower d = d →
        (n.num.text ++ (w1 ++ x :: z3)).map Char.toLower ≠ d :: l := by
      intro d l hdd _ h
      rw [hct, List.map_cons] at h
      injection h with h _
      have hcl : Char.toLower c = c := by
        rcases digit_cases hc with h | h | h | h | h | h | h | h | h | h <;> subst h <;> decide
      rw [hcl] at h; subst h; rw [hc] at hdd; cases hdd
    rw [if_neg (by
      rintro (h | h)
      · exact hlow 'i' _ (by decide) (by decide) h
      · exact hlow 'i' _ (by decide) (by decide) h),
      if_neg (show _ ≠ "nan".toList from hlow 'n' _ (by decide) (by decide))]
    suffices raises (decVal (n.num.text ++ (w1 ++ x :: z3))) by
      obtain ⟨e, he'⟩ := this
      rw [he']; exact ⟨_, rfl⟩
    have hwx : ∀ p : Char → Bool, (∀ c, isSpace c = true → p c = false) → p x = false →
        HeadNot p (w1 ++ x :: z3) := fun p h2 h3 =>
      HeadNot.append (space_not h1 h2) (headNot_cons h3)
    have hexp : raises (expVal (w1 ++ x :: z3)) := by
      have h4 : HeadNot (fun c => c == 'e' || c == 'E') (w1 ++ x :: z3) := by
        apply hwx
        · intro c hc
          rw [space_ne (by decide) c hc, space_ne (by decide) c hc]; rfl
        · simp [he, hE]
      cases hw : w1 ++ x :: z3 with
      | nil => simp at hw
      | cons a l =>
        rw [hw] at h4
        have := h4 a rfl
        simp at this
        refine ⟨.valueError, ?_⟩
        simp only [expVal]
        rw [if_neg (by tauto)]
    have hdg := hwx isDigit space_not_digit hd
    unfold decVal Numeral.text
    cases hf : n.num.frac with
    | none =>
      have h5 : fracPart (w1 ++ x :: z3) = [] := by
        have := hwx (fun c => c == '.') (space_ne (by decide)) (by simp [hdot])
        unfold fracPart; split
        · rename_i heq; have := this '.' (by rw [heq]; rfl); simp at this
        · rfl
      have h6 : afterFrac (w1 ++ x :: z3) = w1 ++ x :: z3 := by
        have := hwx (fun c => c == '.') (space_ne (by decide)) (by simp [hdot])
        unfold afterFrac; split
        · rename_i heq; have := this '.' (by rw [heq]; rfl); simp at this
        · rfl
      simp only [List.append_nil, takeWhile_run _ n.num.int_dig hdg, dropWhile_run _ n.num.int_dig hdg,
        h5, h6]
      rw [if_neg n.num.int_ne]
      obtain ⟨e, he'⟩ := hexp
      rw [he']; exact ⟨_, rfl⟩
    | some f =>
      have hfd := n.num.frac_dig f hf
      have hdd : HeadNot isDigit ('.' :: (f ++ (w1 ++ x :: z3))) := headNot_cons (by decide)
      have e1 : n.num.int ++ '.' :: f ++ (w1 ++ x :: z3) = n.num.int ++ '.' :: (f ++ (w1 ++ x :: z3)) := by
        simp
      simp only [e1, takeWhile_run _ n.num.int_dig hdd, dropWhile_run _ n.num.int_dig hdd, fracPart,
        afterFrac, takeWhile_run f hfd hdg, dropWhile_run f hfd hdg]
      rw [if_neg (by simp [n.num.int_ne])]
      obtain ⟨e, he'⟩ := hexp
      rw [he']; exact ⟨_, rfl⟩

/-! ## findall -/

/-- `re.findall(r, s)` gives `res`. (Specification.) -/
def FindAll (r : Re) (s : List Char) (res : List Caps) : Prop :=
  ∀ N, s.length ≤ N → findallN r N s = res

theorem FindAll.findall {r : Re} {s : List Char} {res} (h : FindAll r s res) : findall r s = res :=
  h _ (by omega)

theorem FindAll.nil {r : Re} (h : pmatch r [] = none) : FindAll r [] [] := by
  intro N _
  cases N with
  | zero => rfl
  | succ n => simp [findallN, h]

theorem FindAll.skip {r : Re} {u rest : List Char} {res}
    (hu : ∀ v w, u = v ++ w → w ≠ [] → pmatch r (w ++ rest) = none) (h : FindAll r rest res) :
    FindAll r (u ++ rest) res := by
  intro N hN
  rw [List.length_append] at hN
  obtain ⟨n, rfl⟩ : ∃ n, N = u.length + n := ⟨N - u.length, by omega⟩
  rw [findallN_skip u rest hu n]
  exact h n (by omega)

theorem FindAll.hit {r : Re} {u rest : List Char} {c : Caps} {res} (hne : u ≠ [])
    (hm : pmatch r (u ++ rest) = some (rest, c)) (h : FindAll r rest res) :
    FindAll r (u ++ rest) (c :: res) := by
  intro N hN
  have hlen : 0 < u.length := List.length_pos_iff.2 hne
  rw [List.length_append] at hN
  cases N with
  | zero => omega
  | succ n =>
    simp only [findallN, hm]
    rw [if_pos (by rw [List.length_append]; omega), h n (by omega)]

end Verif.Parse
