import Verif.IO.Yaml

/-!
# Property theorems about YAML includes (C59)
-/
set_option linter.unusedSectionVars false
set_option linter.unusedSimpArgs false
set_option linter.unusedVariables false
namespace Verif.IO.Yaml
open Verif.Py

theorem okb {E A B : Type} (a : A) (f : A → Except E B) : (Except.ok a >>= f) = f a := rfl

theorem erb {E A B : Type} (e : E) (f : A → Except E B) : (Except.error e >>= f) = .error e := rfl

/-! ## Specification -/

/-- The file that a name stands for, in a document with directory `root`. (Specification.) -/
def Names (root : Option Path) (file p : Path) : Prop :=
  (file.head? = some '/' ∧ p = file) ∨
  (file.head? ≠ some '/' ∧ ∃ r, root = some r ∧
    p = if r = [] ∨ r.getLast? = some '/' then r ++ file else r ++ ['/'] ++ file)

mutual
/-- `Expands fs root doc v`: `v` is the document with all includes replaced by the (expanded) contents
of the files they name.  A derivation is a finite tree, so there are no cyclic includes. (Specification.) -/
inductive Expands (fs : Path → Except YErr Node) : Option Path → Node → Val → Prop where
  | null {root} : Expands fs root .null .null
  | num {root i} : Expands fs root (.num i) (.num i)
  | str {root s} : Expands fs root (.str s) (.str s)
  | seq {root l vs} : ExpandsAll fs root l vs → Expands fs root (.seq l) (.list vs)
  | map {root l vs} : ExpandsAll fs root (l.map Prod.snd) vs →
      Expands fs root (.map l) (.dict (Dict.ofPairs ((l.map Prod.fst).zip vs)))
  | incl {root f p doc v} : Names root f p → fs p = .ok doc → Expands fs (some (dirname p)) doc v →
      Expands fs root (.incl f) v
  | merge {root l vs} : Merges fs root l vs → Expands fs root (.merge l) (.list vs)

/-- All documents of a list, in order. (Specification.) -/
inductive ExpandsAll (fs : Path → Except YErr Node) : Option Path → List Node → List Val → Prop where
  | nil {root} : ExpandsAll fs root [] []
  | cons {root d l v vs} : Expands fs root d v → ExpandsAll fs root l vs →
      ExpandsAll fs root (d :: l) (v :: vs)

/-- Concatenation of the entries of a merge list: an entry naming a file that contains a list
contributes this list; an entry that is not a string, has no path, or does not name a file
contributes itself. (Specification.) -/
inductive Merges (fs : Path → Except YErr Node) : Option Path → List Node → List Val → Prop where
  | nil {root} : Merges fs root [] []
  | file {root d l s p doc ws vs} : Expands fs root d (.str s) → Names root s p → fs p = .ok doc →
      Expands fs (some (dirname p)) doc (.list ws) → Merges fs root l vs →
      Merges fs root (d :: l) (ws ++ vs)
  | notString {root d l v vs} : Expands fs root d v → (∀ s, v ≠ .str s) → Merges fs root l vs →
      Merges fs root (d :: l) (v :: vs)
  | noPath {root d l s vs} : Expands fs root d (.str s) → (∀ p, ¬ Names root s p) →
      Merges fs root l vs → Merges fs root (d :: l) (.str s :: vs)
  | noFile {root d l s p e vs} : Expands fs root d (.str s) → Names root s p → fs p = .error (.os e) →
      (e = .ENOENT ∨ e = .EINVAL ∨ e = .EISDIR) → Merges fs root l vs →
      Merges fs root (d :: l) (.str s :: vs)
end

theorem getFilename_iff (root : Option Path) (f p : Path) :
    getFilename root f = some p ↔ Names root f p := by
  unfold getFilename Names isabs
  by_cases h : f.head? = some '/'
  · simp [h, eq_comm]
  · simp only [decide_eq_true_eq, h, if_false, false_and, ne_eq, not_false_eq_true, true_and, false_or]
    cases root with
    | none => simp
    | some r =>
      simp only [Option.some.injEq, join, isabs, h, decide_false, Bool.false_eq_true, if_false,
        Bool.or_eq_true, List.isEmpty_iff, decide_eq_true_eq, exists_eq_left']
      constructor
      · rintro rfl; split <;> simp
      · rintro rfl; split <;> simp

theorem Names.unique {root : Option Path} {f p q : Path} (h : Names root f p) (h' : Names root f q) :
    p = q := by
  rw [← getFilename_iff] at h h'
  rw [h] at h'
  exact Option.some.inj h'

theorem getFilename_none_iff (root : Option Path) (f : Path) :
    getFilename root f = none ↔ ∀ p, ¬ Names root f p := by
  constructor
  · intro h p hp
    rw [← getFilename_iff, h] at hp
    cases hp
  · intro h
    cases hg : getFilename root f with
    | none => rfl
    | some p => exact absurd ((getFilename_iff root f p).1 hg) (h p)

/-- The result of loading for all large recursion limits. (Specification.) -/
def Evaluates (fs : Path → Except YErr Node) (root : Option Path) (d : Node) (r : Except YErr Val) :
    Prop := ∃ N, ∀ n, N ≤ n → construct fs n root d = r

theorem mapM_cons_ok {E A B : Type} {f : A → Except E B} {a : A} {l : List A} {b : B} {bs : List B}
    (h : f a = .ok b) (hl : l.mapM f = .ok bs) : (a :: l).mapM f = .ok (b :: bs) := by
  rw [List.mapM_cons, h, okb, hl, okb]; rfl

theorem evaluates_of_succ {fs : Path → Except YErr Node} {root : Option Path} {d : Node}
    {r : Except YErr Val} {N : Nat} (h : ∀ n, N ≤ n → construct fs (n + 1) root d = r) :
    Evaluates fs root d r := by
  refine ⟨N + 1, fun n hn => ?_⟩
  obtain ⟨m, rfl⟩ : ∃ m, n = m + 1 := ⟨n - 1, by omega⟩
  exact h m (by omega)

/-- `load p` as used by the constructors with recursion limit `n`. (Specification.) -/
def loadAt (fs : Path → Except YErr Node) (n : Nat) (p : Path) : Except YErr Val :=
  fs p >>= fun nd => construct fs n (some (dirname p)) nd

theorem expands_evaluates (fs : Path → Except YErr Node) {root : Option Path} {d : Node} {v : Val}
    (h : Expands fs root d v) : Evaluates fs root d (.ok v) := by
  refine Expands.rec (fs := fs)
    (motive_1 := fun root d v _ => Evaluates fs root d (.ok v))
    (motive_2 := fun root l vs _ => ∃ N, ∀ n, N ≤ n → l.mapM (construct fs n root) = .ok vs)
    (motive_3 := fun root l vs _ => ∃ N, ∀ n, N ≤ n → ∃ us ws, l.mapM (construct fs n root) = .ok us ∧
      us.mapM (mergeEntry (loadAt fs n) root) = .ok ws ∧ ws.flatten = vs)
    ?_ ?_ ?_ ?_ ?_ ?_ ?_ ?_ ?_ ?_ ?_ ?_ ?_ ?_ h
  · intro root; exact evaluates_of_succ (N := 0) fun n _ => rfl
  · intro root i; exact evaluates_of_succ (N := 0) fun n _ => rfl
  · intro root s; exact evaluates_of_succ (N := 0) fun n _ => rfl
  · rintro root l vs _ ⟨N, hN⟩
    refine evaluates_of_succ (N := N) fun n hn => ?_
    show l.mapM (construct fs n root) >>= _ = _
    rw [hN n hn, okb]
  · rintro root l vs _ ⟨N, hN⟩
    refine evaluates_of_succ (N := N) fun n hn => ?_
    show (l.map Prod.snd).mapM (construct fs n root) >>= _ = _
    rw [hN n hn, okb]
  · rintro root f p doc v hnm hfs _ ⟨N, hN⟩
    refine evaluates_of_succ (N := N) fun n hn => ?_
    show includeFile root f >>= _ = _
    have : includeFile root f = .ok p := by
      unfold includeFile; rw [(getFilename_iff root f p).2 hnm]
    rw [this, okb, hfs, okb]
    exact hN n hn
  · rintro root l vs _ ⟨N, hN⟩
    refine evaluates_of_succ (N := N) fun n hn => ?_
    obtain ⟨us, ws, h1, h2, h3⟩ := hN n hn
    show l.mapM (construct fs n root) >>= _ = _
    rw [h1, okb]
    show us.mapM (mergeEntry (loadAt fs n) root) >>= _ = _
    rw [h2, okb, h3]
  · intro root; exact ⟨0, fun n _ => rfl⟩
  · rintro root d l v vs _ _ ⟨N, hN⟩ ⟨M, hM⟩
    refine ⟨max N M, fun n hn => mapM_cons_ok (hN n ?_) (hM n ?_)⟩ <;> omega
  · intro root; exact ⟨0, fun n _ => ⟨[], [], rfl, rfl, rfl⟩⟩
  · rintro root d l s p doc ws vs _ hnm hfs _ _ ⟨N, hN⟩ ⟨M, hM⟩ ⟨L, hL⟩
    refine ⟨max N (max M L), fun n hn => ?_⟩
    obtain ⟨us, ws', h1, h2, h3⟩ := hL n (by omega)
    refine ⟨_, _, mapM_cons_ok (hN n (by omega)) h1, mapM_cons_ok (b := ws) ?_ h2, by simp [h3]⟩
    unfold mergeEntry
    have : entryFilename root (.str s) = some p := (getFilename_iff root s p).2 hnm
    rw [this]
    have h4 : loadAt fs n p = .ok (.list ws) := by
      unfold loadAt
      rw [hfs, okb, hM n (by omega)]
    simp only [h4, okb, extension]
  · rintro root d l v vs _ hv _ ⟨N, hN⟩ ⟨L, hL⟩
    refine ⟨max N L, fun n hn => ?_⟩
    obtain ⟨us, ws', h1, h2, h3⟩ := hL n (by omega)
    refine ⟨_, _, mapM_cons_ok (hN n (by omega)) h1, mapM_cons_ok (b := [v]) ?_ h2, by simp [h3]⟩
    unfold mergeEntry
    have : entryFilename root v = none := by
      cases v with
      | str s => exact absurd rfl (hv s)
      | _ => rfl
    rw [this]
  · rintro root d l s vs _ hnm _ ⟨N, hN⟩ ⟨L, hL⟩
    refine ⟨max N L, fun n hn => ?_⟩
    obtain ⟨us, ws', h1, h2, h3⟩ := hL n (by omega)
    refine ⟨_, _, mapM_cons_ok (hN n (by omega)) h1, mapM_cons_ok (b := [.str s]) ?_ h2, by simp [h3]⟩
    unfold mergeEntry
    have : entryFilename root (.str s) = none := (getFilename_none_iff root s).2 hnm
    rw [this]
  · rintro root d l s p e vs _ hnm hfs he _ ⟨N, hN⟩ ⟨L, hL⟩
    refine ⟨max N L, fun n hn => ?_⟩
    obtain ⟨us, ws', h1, h2, h3⟩ := hL n (by omega)
    refine ⟨_, _, mapM_cons_ok (hN n (by omega)) h1, mapM_cons_ok (b := [.str s]) ?_ h2, by simp [h3]⟩
    unfold mergeEntry
    have : entryFilename root (.str s) = some p := (getFilename_iff root s p).2 hnm
    rw [this]
    have h4 : loadAt fs n p = .error (.os e) := by
      unfold loadAt
      rw [hfs, erb]
    have h5 : caught e = true := by rcases he with rfl | rfl | rfl <;> rfl
    simp only [h4, erb, h5, if_true]

/-- **C59.** For every (finite, acyclic) tree of files in which all includes can be resolved, loading
a document gives exactly the document with `!include` replaced by the content of the file and
`!include_merge_list` by the concatenation of the listed files, entries that are no files being kept
verbatim — for every sufficiently large recursion limit. -/
theorem C59_include_semantics (fs : Path → Except YErr Node) (name : Option Path) (doc : Node) (v : Val)
    (h : Expands fs (name.map dirname) doc v) :
    ∃ N, ∀ limit, N ≤ limit → loadInclude fs limit name doc = .ok v :=
  expands_evaluates fs h

theorem dropWhile_append_not {A : Type} (p : A → Bool) (l m : List A) (h : ∀ a ∈ l, p a = true) :
    (l ++ m).dropWhile p = m.dropWhile p := by
  induction l with
  | nil => rfl
  | cons a l ih =>
    rw [List.cons_append, List.dropWhile_cons, if_pos (h a (by simp))]
    exact ih fun b hb => h b (by simp [hb])

theorem dropWhile_of_head {A : Type} (p : A → Bool) (l : List A) (h : ∀ a, l.head? = some a → p a = false) :
    l.dropWhile p = l := by
  cases l with
  | nil => rfl
  | cons a l => rw [List.dropWhile_cons, if_neg (by simp [h a rfl])]

/-- **C59.** Nested includes resolve relative to the including file: in the document in file
`dir/name`, a relative name `f` stands for `dir/f`. -/
theorem C59_relative_to_including_file (dir name f : Path) (hd : dir ≠ []) (hl : dir.getLast? ≠ some '/')
    (hn : '/' ∉ name) (hf : f.head? ≠ some '/') (p : Path) :
    Names (some (dirname (dir ++ '/' :: name))) f p ↔ p = dir ++ '/' :: f := by
  have hdn : dirname (dir ++ '/' :: name) = dir := by
    unfold dirname
    have h1 : ((dir ++ '/' :: name).reverse.dropWhile fun c => c != '/') = '/' :: dir.reverse := by
      rw [List.reverse_append, List.reverse_cons, List.append_assoc, dropWhile_append_not]
      · rfl
      · intro c hc
        rw [List.mem_reverse] at hc
        simp only [bne_iff_ne, ne_eq]
        rintro rfl
        exact hn hc
    have h2 : ('/' :: dir.reverse).reverse = dir ++ ['/'] := by simp
    simp only [h1, h2]
    obtain ⟨x, hx⟩ : ∃ x, dir.getLast? = some x := by
      cases h : dir.getLast? with
      | none => exact absurd (List.getLast?_eq_none_iff.1 h) hd
      | some x => exact ⟨x, rfl⟩
    have hx' : x ≠ '/' := by rintro rfl; exact hl hx
    rw [if_neg]
    · rw [List.reverse_append]
      simp only [List.reverse_cons, List.reverse_nil, List.nil_append, List.singleton_append]
      rw [List.dropWhile_cons, if_pos (by rfl), dropWhile_of_head]
      · simp
      · intro a ha
        rw [List.head?_reverse, hx] at ha
        cases ha
        simp [hx']
    · intro hall
      rw [List.all_eq_true] at hall
      have := hall x (by simp [List.mem_of_getLast? hx])
      simp at this
      exact hx' this
  rw [hdn]
  unfold Names
  simp [hf, hd, hl]

/-- **C59.** A relative name in a document given as a string: `!include` raises `ValueError`,
`!include_merge_list` keeps the entry. -/
theorem C59_relative_in_string (fs : Path → Except YErr Node) (f : Path) (hf : f.head? ≠ some '/') (n : Nat) :
    loadInclude fs (n + 1) none (.incl f) = .error .valueError ∧
    loadInclude fs (n + 2) none (.merge [.str f]) = .ok (.list [.str f]) := by
  have hg : getFilename none f = none := by
    unfold getFilename isabs; simp [hf]
  constructor
  · show includeFile none f >>= _ = _
    unfold includeFile
    rw [hg]; rfl
  · show List.mapM (construct fs (n + 1) none) [.str f] >>= _ = _
    rw [show List.mapM (construct fs (n + 1) none) [.str f] = .ok [Val.str f] from rfl, okb]
    rw [mapM_cons_ok (b := [Val.str f]) (bs := []) (by
      unfold mergeEntry
      rw [show entryFilename (Option.map dirname none) (.str f) = none from hg]) rfl]
    rfl

/-- **C59.** Including a file that cannot be opened raises the `OSError`. -/
theorem C59_missing_include_raises (fs : Path → Except YErr Node) (root : Option Path) (f p : Path)
    (h : Names root f p) (e : YErr) (he : fs p = .error e) (n : Nat) :
    construct fs (n + 1) root (.incl f) = .error e := by
  show includeFile root f >>= _ = _
  unfold includeFile
  rw [(getFilename_iff root f p).2 h]
  simp only [okb, he]
  rfl

/-- **C59, exact behaviour for failing merges (disagrees with the English property)**: if constructing
the content of a listed, *existing* file fails with "no such file" — because of a nested include of a
missing file — the failure is swallowed and the *name of the file* is put into the list instead of its
content; any other failure is raised. -/
theorem C59_merge_swallows_nested_errors (fs : Path → Except YErr Node) (root : Option Path)
    (s p : Path) (h : Names root s p) (doc : Node) (hp : fs p = .ok doc) (n : Nat) (e : YErr)
    (hn : construct fs (n + 1) (some (dirname p)) doc = .error e) :
    construct fs (n + 2) root (.merge [.str s]) =
      if e = .os .ENOENT ∨ e = .os .EINVAL ∨ e = .os .EISDIR then .ok (.list [.str s])
      else .error e := by
  show List.mapM (construct fs (n + 1) root) [.str s] >>= _ = _
  rw [show List.mapM (construct fs (n + 1) root) [.str s] = .ok [Val.str s] from rfl, okb,
    List.mapM_cons]
  have h4 : mergeEntry (fun p => fs p >>= fun nd => construct fs (n + 1) (some (dirname p)) nd) root
      (.str s) = if e = .os .ENOENT ∨ e = .os .EINVAL ∨ e = .os .EISDIR then .ok [.str s]
        else .error e := by
    unfold mergeEntry
    have : entryFilename root (.str s) = some p := (getFilename_iff root s p).2 h
    rw [this]
    simp only [hp, okb, hn, erb]
    cases e with
    | os e => cases e <;> simp [caught]
    | _ => simp
  rw [h4]
  split <;> rfl

/-- A concrete file system: `/d/a.yml` is `[1, !include sub/b.yml]`, `/d/sub/b.yml` is
`!include_merge_list [c.yml, x, 7]`, `/d/sub/c.yml` is `[2, 3]`, `/d/bad.yml` includes a missing file. -/
def exFs (p : Path) : Except YErr Node :=
  if p = "/d/a.yml".toList then .ok (.seq [.num 1, .incl "sub/b.yml".toList])
  else if p = "/d/sub/b.yml".toList then .ok (.merge [.str "c.yml".toList, .str "x".toList, .num 7])
  else if p = "/d/sub/c.yml".toList then .ok (.seq [.num 2, .num 3])
  else if p = "/d/bad.yml".toList then .ok (.seq [.incl "missing.yml".toList])
  else .error (.os .ENOENT)

example : Expands exFs (some "/d".toList) (.map [("k".toList, .incl "a.yml".toList)])
    (.dict [("k".toList, .list [.num 1, .list [.num 2, .num 3, .str "x".toList, .num 7]])]) := by
  refine Expands.map (vs := [_]) (.cons (.incl (p := "/d/a.yml".toList) ?_ rfl
    (.seq (.cons .num (.cons (.incl (p := "/d/sub/b.yml".toList) ?_ rfl (.merge
      (.file (ws := [.num 2, .num 3]) (p := "/d/sub/c.yml".toList) .str ?_ rfl
        (.seq (.cons .num (.cons .num .nil)))
        (.noFile (p := "/d/sub/x".toList) .str ?_ rfl (Or.inl rfl)
          (.notString .num (by simp) .nil))))) .nil)))) .nil)
  all_goals (rw [← getFilename_iff]; decide +kernel)

example : construct exFs 3 (some "/d".toList) (.merge [.str "bad.yml".toList]) =
    .ok (.list [.str "bad.yml".toList]) := by
  rw [C59_merge_swallows_nested_errors exFs (some "/d".toList) "bad.yml".toList "/d/bad.yml".toList
    ((getFilename_iff _ _ _).1 (by decide +kernel)) (.seq [.incl "missing.yml".toList])
    (by rfl) 1 (.os .ENOENT) (by rfl)]
  simp

end Verif.IO.Yaml
