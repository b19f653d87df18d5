import Verif.Py.Dict
/-!
# Python regular expressions (the fragment used by flavio)

A backtracking matcher with Python's priorities: greedy repetition, ordered alternatives, numbered
groups.  The matcher passes the remaining input and the captures to a continuation and returns the
first success in priority order, which is what `re.match` returns.
-/
namespace Verif.Py

/-- Abstract syntax.  `chr p`: one character satisfying `p`; `eos`: `$`.
Python library semantics used by the model. -/
inductive Re where
  | eps
  | eos
  | chr (p : Char → Bool)
  | seq (a b : Re)
  | alt (a b : Re)
  | star (a : Re)
  | opt (a : Re)
  | grp (n : Nat) (a : Re)

namespace Re

/-- Captured groups. Python library semantics used by the model. -/
abbrev Caps := Dict Nat (List Char)
/-- Result of a match: the rest of the input and the groups. Python library semantics used by the model. -/
abbrev Res := Option (List Char × Caps)
/-- What remains to be matched. Python library semantics used by the model. -/
abbrev Cont := List Char → Caps → Res

/-- Greedy repetition; an iteration must consume something; `n` bounds the number of iterations
(the length of the input is always enough). Python library semantics used by the model. -/
def loop (f : List Char → Caps → Cont → Res) : Nat → List Char → Caps → Cont → Res
  | 0, s, c, k => k s c
  | n + 1, s, c, k =>
    (f s c (fun s' c' => if s'.length < s.length then loop f n s' c' k else none)).or (k s c)

/-- The backtracking matcher. `$` matches at the end and before a final newline.
Python library semantics used by the model. -/
def run : Re → List Char → Caps → Cont → Res
  | .eps, s, c, k => k s c
  | .eos, s, c, k => if s = [] ∨ s = ['\n'] then k s c else none
  | .chr p, s, c, k =>
    match s with
    | x :: s' => if p x then k s' c else none
    | [] => none
  | .seq a b, s, c, k => run a s c (fun s' c' => run b s' c' k)
  | .alt a b, s, c, k => (run a s c k).or (run b s c k)
  | .star a, s, c, k => loop (run a) s.length s c k
  | .opt a, s, c, k => (run a s c k).or (k s c)
  | .grp n a, s, c, k =>
    run a s c (fun s' c' => k s' (c'.set n (s.take (s.length - s'.length))))

/-- `re.match(r, s)`: match at the start of `s`. Python library semantics used by the model. -/
def pmatch (r : Re) (s : List Char) : Res := run r s [] (fun s' c => some (s', c))

/-- `re.findall(r, s)`: captures of the successive non-overlapping matches, scanning left to right.
`n` is a step bound; `s.length + 1` steps always suffice. (An empty match advances by one character;
the patterns used here have no empty match.) Python library semantics used by the model. -/
def findallN (r : Re) : Nat → List Char → List Caps
  | 0, _ => []
  | n + 1, s =>
    match pmatch r s with
    | some (s', c) =>
      if s'.length < s.length then c :: findallN r n s'
      else match s with
        | [] => [c]
        | _ :: t => c :: findallN r n t
    | none =>
      match s with
      | [] => []
      | _ :: t => findallN r n t

/-- Python library semantics used by the model. -/
def findall (r : Re) (s : List Char) : List Caps := findallN r (s.length + 1) s

/-! ### Notation helpers -/
/-- Python library semantics used by the model. -/
def lit (c : Char) : Re := .chr (fun x => x == c)
/-- Python library semantics used by the model. -/
def plus (a : Re) : Re := .seq a (.star a)
/-- Python library semantics used by the model. -/
def seqs : List Re → Re
  | [] => .eps
  | [a] => a
  | a :: l => .seq a (seqs l)
/-- Python library semantics used by the model. -/
def alts : List Re → Re
  | [] => .eps
  | [a] => a
  | a :: l => .alt a (alts l)

/-- `\s` (ASCII part): tab, newline, vertical tab, form feed, return, the separators 28-31, space.
Python library semantics used by the model. -/
def isSpace (c : Char) : Bool := (9 ≤ c.toNat && c.toNat ≤ 13) || (28 ≤ c.toNat && c.toNat ≤ 32)
/-- `\d` (ASCII part). Python library semantics used by the model. -/
def isDigit (c : Char) : Bool := 48 ≤ c.toNat && c.toNat ≤ 57

/-- Python library semantics used by the model. -/
def ws : Re := .star (.chr isSpace)
/-- Python library semantics used by the model. -/
def dig : Re := .chr isDigit
/-- `\d+\.?\d*` Python library semantics used by the model. -/
def num : Re := seqs [plus dig, .opt (lit '.'), .star dig]

/-! ### The language of an expression (end-of-string tests ignored) -/

/-- Strings a regular expression can consume. Python library semantics used by the model. -/
def Lang : Re → List Char → Prop
  | .eps, u => u = []
  | .eos, u => u = []
  | .chr p, u => ∃ x, p x = true ∧ u = [x]
  | .seq a b, u => ∃ v w, u = v ++ w ∧ Lang a v ∧ Lang b w
  | .alt a b, u => Lang a u ∨ Lang b u
  | .star a, u => ∃ l : List (List Char), u = l.flatten ∧ ∀ v ∈ l, Lang a v
  | .opt a, u => Lang a u ∨ u = []
  | .grp _ a, u => Lang a u

theorem loop_sound (a : Re)
    (ih : ∀ s c k r, run a s c k = some r →
      ∃ u s' c', s = u ++ s' ∧ Lang a u ∧ k s' c' = some r) :
    ∀ n s c k r, loop (run a) n s c k = some r →
      ∃ u s' c', s = u ++ s' ∧ Lang (.star a) u ∧ k s' c' = some r := by
  intro n
  induction n with
  | zero => intro s c k r h; exact ⟨[], s, c, rfl, ⟨[], rfl, by simp⟩, h⟩
  | succ n ihn =>
    intro s c k r h
    rw [loop, Option.or_eq_some_iff] at h
    rcases h with h | ⟨-, h⟩
    · obtain ⟨u, s', c', rfl, hu, hk⟩ := ih _ _ _ _ h
      split at hk
      · obtain ⟨u', s'', c'', rfl, ⟨l, rfl, hl⟩, hk2⟩ := ihn _ _ _ _ hk
        refine ⟨u ++ l.flatten, s'', c'', by simp, ⟨u :: l, by simp, ?_⟩, hk2⟩
        intro v hv
        rcases List.mem_cons.1 hv with rfl | hv
        · exact hu
        · exact hl v hv
      · cases hk
    · exact ⟨[], s, c, rfl, ⟨[], rfl, by simp⟩, h⟩

/-- A successful run consumed a string of the language and then the continuation succeeded. -/
theorem run_sound (a : Re) : ∀ s c k r, run a s c k = some r →
    ∃ u s' c', s = u ++ s' ∧ Lang a u ∧ k s' c' = some r := by
  induction a with
  | eps => intro s c k r h; exact ⟨[], s, c, rfl, rfl, h⟩
  | eos =>
    intro s c k r h
    simp only [run] at h
    split at h
    · exact ⟨[], s, c, rfl, rfl, h⟩
    · cases h
  | chr p =>
    intro s c k r h
    cases s with
    | nil => simp [run] at h
    | cons x s =>
      simp only [run] at h
      split at h
      · rename_i hp; exact ⟨[x], s, c, rfl, ⟨x, hp, rfl⟩, h⟩
      · cases h
  | seq a b iha ihb =>
    intro s c k r h
    obtain ⟨u, s', c', rfl, hu, h⟩ := iha _ _ _ _ h
    obtain ⟨v, s'', c'', rfl, hv, h⟩ := ihb _ _ _ _ h
    exact ⟨u ++ v, s'', c'', by simp, ⟨u, v, rfl, hu, hv⟩, h⟩
  | alt a b iha ihb =>
    intro s c k r h
    rw [run, Option.or_eq_some_iff] at h
    rcases h with h | ⟨-, h⟩
    · obtain ⟨u, s', c', e, hu, h⟩ := iha _ _ _ _ h; exact ⟨u, s', c', e, Or.inl hu, h⟩
    · obtain ⟨u, s', c', e, hu, h⟩ := ihb _ _ _ _ h; exact ⟨u, s', c', e, Or.inr hu, h⟩
  | star a ih => intro s c k r h; exact loop_sound a ih _ _ _ _ _ h
  | opt a ih =>
    intro s c k r h
    rw [run, Option.or_eq_some_iff] at h
    rcases h with h | ⟨-, h⟩
    · obtain ⟨u, s', c', e, hu, h⟩ := ih _ _ _ _ h; exact ⟨u, s', c', e, Or.inl hu, h⟩
    · exact ⟨[], s, c, rfl, Or.inr rfl, h⟩
  | grp n a ih =>
    intro s c k r h
    obtain ⟨u, s', c', e, hu, h⟩ := ih _ _ _ _ h
    exact ⟨u, s', _, e, hu, h⟩

/-- Every string of the language has a character satisfying `p` (syntactic sufficient condition).
Python library semantics used by the model. -/
def Needs (p : Char → Prop) (a : Re) : Prop := ∀ u, Lang a u → ∃ x ∈ u, p x

theorem needs_seq_left {p : Char → Prop} {a b : Re} (h : Needs p a) : Needs p (.seq a b) := by
  rintro u ⟨v, w, rfl, hv, -⟩
  obtain ⟨x, hx, hp⟩ := h v hv
  exact ⟨x, by simp [hx], hp⟩

theorem needs_seq_right {p : Char → Prop} {a b : Re} (h : Needs p b) : Needs p (.seq a b) := by
  rintro u ⟨v, w, rfl, -, hw⟩
  obtain ⟨x, hx, hp⟩ := h w hw
  exact ⟨x, by simp [hx], hp⟩

theorem needs_lit (c : Char) : Needs (fun x => x = c) (lit c) := by
  rintro u ⟨x, hx, rfl⟩
  exact ⟨x, by simp, by simpa using hx⟩

theorem pmatch_none_of_needs {p : Char → Prop} {a : Re} (h : Needs p a) {s : List Char}
    (hs : ∀ x ∈ s, ¬ p x) : pmatch a s = none := by
  cases e : pmatch a s with
  | none => rfl
  | some r =>
    obtain ⟨u, s', c', rfl, hu, -⟩ := run_sound a _ _ _ _ e
    obtain ⟨x, hx, hp⟩ := h u hu
    exact absurd hp (hs x (by simp [hx]))

/-! ### Symbolic execution of the greedy path -/

theorem run_seq (a b : Re) (s c k) : run (.seq a b) s c k = run a s c (fun s' c' => run b s' c' k) := rfl

theorem run_seqs_cons (a b : Re) (l : List Re) (s c k) :
    run (seqs (a :: b :: l)) s c k = run a s c (fun s' c' => run (seqs (b :: l)) s' c' k) := rfl
theorem run_seqs_one (a : Re) (s c k) : run (seqs [a]) s c k = run a s c k := rfl

theorem run_lit (x : Char) (s c k) : run (lit x) (x :: s) c k = k s c := by simp [lit, run]
theorem run_lit_ne {x y : Char} (h : y ≠ x) (s c k) : run (lit x) (y :: s) c k = none := by
  simp [lit, run, h]
theorem run_lit_nil (x : Char) (c k) : run (lit x) [] c k = none := rfl

/-- The first character of `s`, if any, does not satisfy `p`. Python library semantics used by the model. -/
def HeadNot (p : Char → Bool) (s : List Char) : Prop := ∀ x, s.head? = some x → p x = false

theorem headNot_nil (p) : HeadNot p [] := by simp [HeadNot]
theorem headNot_cons {p : Char → Bool} {x : Char} {s} (h : p x = false) : HeadNot p (x :: s) := by
  simp [HeadNot, h]

theorem run_chr_headNot {p : Char → Bool} {s} (h : HeadNot p s) (c k) : run (.chr p) s c k = none := by
  cases s with
  | nil => rfl
  | cons x s => simp [run, h x rfl]

theorem run_lit_headNot {x : Char} {s} (h : HeadNot (fun y => y == x) s) (c k) :
    run (lit x) s c k = none := run_chr_headNot h c k

theorem run_opt_none {a : Re} {s c k} (h : run a s c k = none) : run (.opt a) s c k = k s c := by
  simp [run, h]
theorem run_opt_some {a : Re} {s c k r} (h : run a s c k = some r) : run (.opt a) s c k = some r := by
  simp [run, h]
theorem run_alt_left {a b : Re} {s c k r} (h : run a s c k = some r) :
    run (.alt a b) s c k = some r := by simp [run, h]
theorem run_alt_right {a b : Re} {s c k} (h : run a s c k = none) :
    run (.alt a b) s c k = run b s c k := by simp [run, h]

theorem run_grp (n : Nat) (a : Re) (s c k) : run (.grp n a) s c k =
    run a s c (fun s' c' => k s' (c'.set n (s.take (s.length - s'.length)))) := rfl

theorem take_sub (u s : List Char) : (u ++ s).take ((u ++ s).length - s.length) = u := by
  simp

/-- Greedy repetition of a character class on the maximal run `w`. -/
theorem run_star_chr {p : Char → Bool} (w : List Char) (hw : ∀ x ∈ w, p x = true) {rest : List Char}
    (hr : HeadNot p rest) {c : Caps} {k : Cont} {r} (hk : k rest c = some r) :
    run (.star (.chr p)) (w ++ rest) c k = some r := by
  suffices H : ∀ n, w.length ≤ n → loop (run (.chr p)) n (w ++ rest) c k = some r from
    H _ (by simp)
  induction w with
  | nil =>
    intro n _
    cases n with
    | zero => exact hk
    | succ n => rw [List.nil_append, loop, run_chr_headNot hr]; simpa using hk
  | cons x w ih =>
    intro n hn
    cases n with
    | zero => simp at hn
    | succ n =>
      have : loop (run (.chr p)) n (w ++ rest) c k = some r :=
        ih (fun y hy => hw y (by simp [hy])) n (by simpa using hn)
      have h1 : run (.chr p) (x :: (w ++ rest)) c (fun s' c' =>
          if s'.length < (x :: (w ++ rest)).length then loop (run (.chr p)) n s' c' k else none) =
          some r := by
        show (if p x = true then _ else none) = some r
        rw [if_pos (hw x (by simp)), if_pos (by simp)]; exact this
      rw [List.cons_append, loop, h1]; rfl

/-- Greedy repetition of an expression over a list of blocks, each matched by one iteration. -/
theorem run_star_blocks {a : Re} (l : List (List Char)) {rest : List Char} {c : Caps} {k : Cont} {r}
    (hne : ∀ u ∈ l, u ≠ [])
    (hblock : ∀ pre u post, l = pre ++ u :: post → ∀ k' : Cont, ∀ r',
      k' (post.flatten ++ rest) c = some r' → run a (u ++ (post.flatten ++ rest)) c k' = some r')
    (hend : ∀ k' : Cont, run a rest c k' = none)
    (hk : k rest c = some r) :
    run (.star a) (l.flatten ++ rest) c k = some r := by
  suffices H : ∀ n, l.flatten.length ≤ n → loop (run a) n (l.flatten ++ rest) c k = some r from
    H _ (by simp)
  induction l with
  | nil =>
    intro n _
    cases n with
    | zero => exact hk
    | succ n => rw [List.flatten_nil, List.nil_append, loop, hend]; simpa using hk
  | cons u l ih =>
    intro n hn
    have hu : 0 < u.length := List.length_pos_iff.2 (hne u (by simp))
    cases n with
    | zero => rw [List.flatten_cons, List.length_append] at hn; omega
    | succ n =>
      have h2 := ih (fun v hv => hne v (by simp [hv]))
        (fun pre v post e => hblock (u :: pre) v post (by simp [e])) n
        (by rw [List.flatten_cons, List.length_append] at hn; omega)
      rw [loop, List.flatten_cons, List.append_assoc]
      have := hblock [] u l rfl
        (fun s' c' => if s'.length < (u ++ (l.flatten ++ rest)).length
          then loop (run a) n s' c' k else none) r (by
            rw [if_pos (by rw [List.length_append (as := u)]; omega)]; exact h2)
      rw [this]; rfl

/-- `\d+` etc. on a non-empty maximal run. -/
theorem run_plus_chr {p : Char → Bool} (w : List Char) (hne : w ≠ []) (hw : ∀ x ∈ w, p x = true)
    {rest : List Char} (hr : HeadNot p rest) {c : Caps} {k : Cont} {r} (hk : k rest c = some r) :
    run (plus (.chr p)) (w ++ rest) c k = some r := by
  cases w with
  | nil => exact absurd rfl hne
  | cons x w =>
    simp only [plus, run_seq, List.cons_append]
    simp only [run, hw x (by simp), if_true]
    exact run_star_chr w (fun y hy => hw y (by simp [hy])) hr hk

/-! ### findall -/

theorem pmatch_of_run {r : Re} {s : List Char} {x} (h : run r s [] (fun s' c => some (s', c)) = some x) :
    pmatch r s = some x := h

theorem findallN_skip {r : Re} (u rest : List Char) :
    (∀ v w, u = v ++ w → w ≠ [] → pmatch r (w ++ rest) = none) →
    ∀ n, findallN r (u.length + n) (u ++ rest) = findallN r n rest := by
  induction u with
  | nil => intro _ n; simp
  | cons x u ih =>
    intro h n
    have h0 := h [] (x :: u) rfl (by simp)
    have : findallN r ((u.length + n) + 1) (x :: (u ++ rest)) = findallN r (u.length + n) (u ++ rest) := by
      rw [List.cons_append] at h0
      simp only [findallN, h0]
    rw [show (x :: u).length + n = (u.length + n) + 1 by simp; omega, List.cons_append, this]
    exact ih (fun v w e hw => h (x :: v) w (by simp [e]) hw) n

end Re
end Verif.Py
