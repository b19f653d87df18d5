import Mathlib.Data.List.Basic
import Mathlib.Data.List.Sublists
import Mathlib.Data.Real.Basic
import Mathlib.Tactic.Linarith
/-!
# Parton distributions: `flavio/physics/dileptons/partondist.py`

The state consists of the configured name of the PDF set, the sets installed on disk and the two caches (`functools.lru_cache`).
What a PDF set contains (`lib`), which sets can be downloaded (`avail`) and the luminosity computed from a PDF at a scale (`lum`) are
parameters.  The `parton` package itself is not modelled: `parton.PDF(name, member)` raises `ValueError` if the set is not installed,
or, with "Data file" in the message, if the set has no such member.
-/
set_option linter.unusedVariables false
set_option linter.unusedSimpArgs false
namespace Verif.Dileptons.Pdf

variable {P L : Type}

/-- What goes wrong.  /repo/flavio/physics/dileptons/partondist.py:11-23. -/
inductive Err
  /-- "PDF set ... does not provide member ..." -/
  | noMember
  /-- "PDF set ... not available" -/
  | notAvailable
  /-- the `ValueError` of `parton.PDF` after a download -/
  | dataFile
  /-- the download itself fails -/
  | download
deriving DecidableEq, Repr

/-- The arguments of `get_pdf`.  /repo/flavio/physics/dileptons/partondist.py:12. -/
abbrev PKey := String × ℤ × Bool

/-- The state.  /repo/flavio/physics/dileptons/partondist.py:11,26,28. -/
structure St (P L : Type) where
  name : String
  inst : List String
  pdfs : List (PKey × P)
  lumis : List ((ℝ × ℤ) × L)

/-- What does not change. (Used for `getPdf`, /repo/flavio/physics/dileptons/partondist.py:11-30.) -/
structure World (P L : Type) where
  lib : String → ℤ → Option P
  avail : String → Bool
  lum : P → ℝ → L

/-- `parton.PDF(name, member)`; `none` if the set is not installed, `some none` if the set has no such member.
/repo/flavio/physics/dileptons/partondist.py:14. -/
def openPdf (W : World P L) (inst : List String) (n : String) (m : ℤ) : Option (Option P) :=
  if n ∈ inst then some (W.lib n m) else none

/-- The body of `get_pdf`: the result and the installed sets afterwards.  /repo/flavio/physics/dileptons/partondist.py:12-24. -/
def pdfBody (W : World P L) (inst : List String) : PKey → Except Err P × List String
  | (n, m, download) =>
    match openPdf W inst n m with
    | some (some p) => (.ok p, inst)
    | some none => (.error .noMember, inst)
    | none =>
      if download then
        if W.avail n then
          match openPdf W (n :: inst) n m with
          | some (some p) => (.ok p, n :: inst)
          | _ => (.error .dataFile, n :: inst)
        else (.error .download, inst)
      else (.error .notAvailable, inst)

/-- `functools.lru_cache` for the first `size` entries, the most recent first: a stored value is returned and moved to the front, a new
value is stored in front; what does not fit is dropped.  (Used for `getPdf`, /repo/flavio/physics/dileptons/partondist.py:11.) -/
def remember [DecidableEq K] (size : Nat) (cache : List (K × V)) (k : K) (v : V) : List (K × V) :=
  ((k, v) :: cache.filter fun e => e.1 ≠ k).take size

/-- `get_pdf` with its cache (`@lru_cache()`, 128 entries).  /repo/flavio/physics/dileptons/partondist.py:11-24. -/
def getPdf (W : World P L) (s : St P L) (k : PKey) : Except Err P × St P L :=
  match s.pdfs.lookup k with
  | some p => (.ok p, { s with pdfs := remember 128 s.pdfs k p })
  | none =>
    match pdfBody W s.inst k with
    | (.ok p, inst) => (.ok p, { s with inst := inst, pdfs := remember 128 s.pdfs k p })
    | (.error e, inst) => (.error e, { s with inst := inst })

open Classical in
/-- `get_parton_lumi` with its cache (`@lru_cache(maxsize=None)`): the name of the set is not part of the key.
/repo/flavio/physics/dileptons/partondist.py:26-30. -/
noncomputable def getLumi (W : World P L) (s : St P L) (Q2 : ℝ) (m : ℤ) : Except Err L × St P L :=
  match s.lumis.lookup (Q2, m) with
  | some l => (.ok l, s)
  | none =>
    match getPdf W s (s.name, m, false) with
    | (.ok p, s') => (.ok (W.lum p Q2), { s' with lumis := ((Q2, m), W.lum p Q2) :: s'.lumis })
    | (.error e, s') => (.error e, s')

/-- What a user can do: choose the set (`config['PDF set']['dileptons']['name'] = ...`), install a set from outside, and call the two
functions.  /repo/flavio/physics/dileptons/partondist.py:12,27-28. -/
inductive Op
  | choose (n : String)
  | install (n : String)
  | pdf (k : PKey)
  | lumi (Q2 : ℝ) (m : ℤ)

/-- The state after an operation. (Used for `run`, /repo/flavio/physics/dileptons/partondist.py:12,27.) -/
noncomputable def step (W : World P L) (s : St P L) : Op → St P L
  | .choose n => { s with name := n }
  | .install n => { s with inst := n :: s.inst }
  | .pdf k => (getPdf W s k).2
  | .lumi Q2 m => (getLumi W s Q2 m).2

/-- The state after a history. (Used for `start`, /repo/flavio/physics/dileptons/partondist.py:12,27.) -/
noncomputable def run (W : World P L) (s : St P L) (h : List Op) : St P L := h.foldl (step W) s

/-- A new session: nothing in the caches.  /repo/flavio/physics/dileptons/partondist.py:11,26. -/
def start (n : String) (inst : List String) : St P L := ⟨n, inst, [], []⟩

/-! ## Invariant -/

/-- What is in the caches comes from the sets, and from a name that has been configured. (Specification.) -/
structure Inv (W : World P L) (names : List String) (s : St P L) : Prop where
  pdfs : ∀ n m d p, ((n, m, d), p) ∈ s.pdfs → W.lib n m = some p ∧ n ∈ s.inst
  size : s.pdfs.length ≤ 128
  lumis : ∀ Q2 m l, ((Q2, m), l) ∈ s.lumis → ∃ n ∈ names, n ∈ s.inst ∧ ∃ p, W.lib n m = some p ∧ l = W.lum p Q2
  cur : s.name ∈ names

theorem mem_remember [DecidableEq K] {size : Nat} {c : List (K × V)} {k : K} {v : V} {e : K × V} (h : e ∈ remember size c k v) : e = (k, v) ∨ e ∈ c := by
  have := List.mem_of_mem_take h
  rcases List.mem_cons.1 this with h | h
  · exact .inl h
  · exact .inr (List.mem_filter.1 h).1

theorem mem_of_lookup [BEq K] [LawfulBEq K] {c : List (K × V)} {k : K} {v : V} (h : c.lookup k = some v) : (k, v) ∈ c := by
  induction c with
  | nil => simp at h
  | cons e c ih =>
    obtain ⟨k', v'⟩ := e
    by_cases hk : k = k'
    · subst hk; simp [List.lookup] at h; simp [h]
    · have : (k == k') = false := beq_eq_false_iff_ne.2 hk
      simp only [List.lookup, this] at h
      exact List.mem_cons_of_mem _ (ih h)

theorem pdfBody_spec (W : World P L) (inst : List String) (n : String) (m : ℤ) (d : Bool) :
    (∀ x ∈ inst, x ∈ (pdfBody W inst (n, m, d)).2) ∧ (∀ p, (pdfBody W inst (n, m, d)).1 = .ok p → W.lib n m = some p ∧ n ∈ (pdfBody W inst (n, m, d)).2)
    ∧ (d = false → (pdfBody W inst (n, m, d)).2 = inst) := by
  unfold pdfBody openPdf
  by_cases hn : n ∈ inst
  · simp only [if_pos hn]
    cases hl : W.lib n m with
    | none => simp
    | some p => simp [hn]
  · simp only [if_neg hn]
    cases d
    · simp
    · cases hav : W.avail n with
      | false => simp
      | true =>
        simp only [List.mem_cons, true_or, if_true]
        cases hl : W.lib n m with
        | none => simp; intro x hx; exact .inr hx
        | some p => simp; intro x hx; exact .inr hx

theorem inv_getPdf {W : World P L} {names : List String} {s : St P L} (h : Inv W names s) (k : PKey) :
    Inv W names (getPdf W s k).2 ∧ (getPdf W s k).2.name = s.name ∧ (getPdf W s k).2.lumis = s.lumis ∧ (∀ x ∈ s.inst, x ∈ (getPdf W s k).2.inst)
    ∧ (∀ p, (getPdf W s k).1 = .ok p → W.lib k.1 k.2.1 = some p ∧ k.1 ∈ (getPdf W s k).2.inst) := by
  obtain ⟨n, m, d⟩ := k
  unfold getPdf
  cases hl : s.pdfs.lookup (n, m, d) with
  | some p =>
    have hm := mem_of_lookup hl
    obtain ⟨h1, h2⟩ := h.pdfs n m d p hm
    refine ⟨⟨?_, ?_, h.lumis, h.cur⟩, rfl, rfl, fun x hx => hx, fun p' hp => ?_⟩
    · intro n' m' d' p' hp
      rcases mem_remember hp with he | he
      · simp only [Prod.mk.injEq] at he; obtain ⟨⟨rfl, rfl, rfl⟩, rfl⟩ := he; exact ⟨h1, h2⟩
      · exact h.pdfs _ _ _ _ he
    · exact List.length_take_le _ _
    · injection hp with hp; subst hp; exact ⟨h1, h2⟩
  | none =>
    obtain ⟨g1, g2, g3⟩ := pdfBody_spec W s.inst n m d
    rcases hb : pdfBody W s.inst (n, m, d) with ⟨r, inst⟩
    rw [hb] at g1 g2 g3
    have lum : ∀ Q2 m l, ((Q2, m), l) ∈ s.lumis → ∃ n ∈ names, n ∈ inst ∧ ∃ p, W.lib n m = some p ∧ l = W.lum p Q2 := by
      intro Q2 m l hm
      obtain ⟨n, a, b, c⟩ := h.lumis Q2 m l hm
      exact ⟨n, a, g1 _ b, c⟩
    cases r with
    | ok p =>
      obtain ⟨h1, h2⟩ := g2 p rfl
      refine ⟨⟨?_, List.length_take_le _ _, lum, h.cur⟩, rfl, rfl, g1, fun p' hp => ?_⟩
      · intro n' m' d' p' hp
        rcases mem_remember hp with he | he
        · simp only [Prod.mk.injEq] at he; obtain ⟨⟨rfl, rfl, rfl⟩, rfl⟩ := he; exact ⟨h1, h2⟩
        · exact ⟨(h.pdfs _ _ _ _ he).1, g1 _ (h.pdfs _ _ _ _ he).2⟩
      · injection hp with hp; subst hp; exact ⟨h1, h2⟩
    | error e =>
      refine ⟨⟨fun n' m' d' p' hp => ⟨(h.pdfs _ _ _ _ hp).1, g1 _ (h.pdfs _ _ _ _ hp).2⟩, h.size, lum, h.cur⟩, rfl, rfl, g1, fun p' hp => ?_⟩
      exact absurd hp (by simp)

theorem inv_getLumi {W : World P L} {names : List String} {s : St P L} (h : Inv W names s) (Q2 : ℝ) (m : ℤ) :
    Inv W names (getLumi W s Q2 m).2 ∧ ∀ l, (getLumi W s Q2 m).1 = .ok l → ∃ n ∈ names, ∃ p, W.lib n m = some p ∧ l = W.lum p Q2 := by
  unfold getLumi
  cases hl : s.lumis.lookup (Q2, m) with
  | some l =>
    obtain ⟨n, a, _, c⟩ := h.lumis Q2 m l (mem_of_lookup hl)
    refine ⟨h, fun l' hl' => ?_⟩
    injection hl' with hl'; subst hl'; exact ⟨n, a, c⟩
  | none =>
    obtain ⟨i, nm, lu, g, v⟩ := inv_getPdf h (s.name, m, false)
    rcases hb : getPdf W s (s.name, m, false) with ⟨r, s'⟩
    rw [hb] at i nm lu g v
    cases r with
    | ok p =>
      obtain ⟨h1, h2⟩ := v p rfl
      refine ⟨⟨i.pdfs, i.size, ?_, i.cur⟩, fun l' hl' => ?_⟩
      · intro Q2' m' l' hm
        rcases List.mem_cons.1 hm with he | he
        · simp only [Prod.mk.injEq] at he; obtain ⟨⟨rfl, rfl⟩, rfl⟩ := he
          exact ⟨_, h.cur, h2, p, h1, rfl⟩
        · exact i.lumis _ _ _ he
      · injection hl' with hl'; subst hl'; exact ⟨_, h.cur, p, h1, rfl⟩
    | error e => exact ⟨i, fun l' hl' => absurd hl' (by simp)⟩

/-- The names configured during a history. (Specification.) -/
def chosen (n : String) : List Op → List String
  | [] => [n]
  | .choose n' :: h => n' :: chosen n h
  | _ :: h => chosen n h

theorem Inv.mono {W : World P L} {a b : List String} {s : St P L} (h : Inv W a s) (hab : ∀ x ∈ a, x ∈ b) : Inv W b s :=
  ⟨h.pdfs, h.size, fun Q2 m l hm => let ⟨n, x, y⟩ := h.lumis Q2 m l hm; ⟨n, hab _ x, y⟩, hab _ h.cur⟩

theorem inv_step {W : World P L} {names : List String} {s : St P L} (h : Inv W names s) (o : Op) (ho : ∀ n, o = .choose n → n ∈ names) : Inv W names (step W s o) := by
  cases o with
  | choose n => exact ⟨h.pdfs, h.size, h.lumis, ho n rfl⟩
  | install n => exact ⟨fun a b c d e => ⟨(h.pdfs a b c d e).1, List.mem_cons_of_mem _ (h.pdfs a b c d e).2⟩, h.size,
      fun Q2 m l hm => let ⟨x, a, b, c⟩ := h.lumis Q2 m l hm; ⟨x, a, List.mem_cons_of_mem _ b, c⟩, h.cur⟩
  | pdf k => exact (inv_getPdf h k).1
  | lumi Q2 m => exact (inv_getLumi h Q2 m).1

theorem inv_run {W : World P L} {names : List String} {s : St P L} (h : Inv W names s) (l : List Op) (hl : ∀ n, .choose n ∈ l → n ∈ names) : Inv W names (run W s l) := by
  induction l generalizing s with
  | nil => exact h
  | cons o l ih => exact ih (inv_step h o fun n e => hl n (e ▸ List.mem_cons_self)) fun n hn => hl n (List.mem_cons_of_mem _ hn)

theorem chosen_mem (n : String) (h : List Op) : n ∈ chosen n h ∧ ∀ n', .choose n' ∈ h → n' ∈ chosen n h := by
  induction h with
  | nil => simp [chosen]
  | cons o h ih =>
    cases o <;> simp only [chosen, List.mem_cons, reduceCtorEq, false_or, Op.choose.injEq] <;>
      first | exact ih | exact ⟨.inr ih.1, fun n' hn => hn.imp id (ih.2 n')⟩

theorem inv_start (W : World P L) (n : String) (inst : List String) (h : List Op) : Inv W (chosen n h) (run W (start n inst) h) := by
  refine inv_run ⟨?_, ?_, ?_, ?_⟩ h (chosen_mem n h).2
  · intro n m d p hm; exact absurd hm (by simp [start])
  · simp [start]
  · intro Q2 m l hm; exact absurd hm (by simp [start])
  · exact (chosen_mem n h).1

/-! ## Theorems -/

/-- **C138 (PDF members)** After every history of calls, installations and changes of the configuration, a PDF that is returned is the
member asked for of the set asked for; if the set is installed, the answer depends on the contents of the set alone; the
cache holds at most 128 of them. -/
theorem C138_pdf (W : World P L) (n : String) (inst : List String) (h : List Op) (k : PKey) :
    let s := run W (start n inst) h
    (∀ p, (getPdf W s k).1 = .ok p → W.lib k.1 k.2.1 = some p)
    ∧ (k.1 ∈ s.inst → (getPdf W s k).1 = match W.lib k.1 k.2.1 with | some p => .ok p | none => .error .noMember)
    ∧ s.pdfs.length ≤ 128 := by
  intro s
  have hi : Inv W (chosen n h) s := inv_start W n inst h
  refine ⟨fun p hp => ((inv_getPdf hi k).2.2.2.2 p hp).1, fun hk => ?_, hi.size⟩
  obtain ⟨nm, m, d⟩ := k
  have hk : nm ∈ s.inst := hk
  unfold getPdf
  cases hl : s.pdfs.lookup (nm, m, d) with
  | some p => simp only [(hi.pdfs _ _ _ _ (mem_of_lookup hl)).1]
  | none =>
    unfold pdfBody openPdf
    simp only [if_pos hk]
    cases W.lib nm m <;> rfl

/-- **C138 (missing sets)** A set that is not installed is reported, nothing is stored, and the same call succeeds once it is there; with
`download=True` the set is installed by the call. -/
theorem C138_install (W : World P L) (n : String) (inst : List String) (h : List Op) (nm : String) (m : ℤ) (p : P) (hp : W.lib nm m = some p) :
    let s := run W (start n inst) h
    nm ∉ s.inst → (getPdf W s (nm, m, false) = (.error .notAvailable, s)
      ∧ (getPdf W (step W s (.install nm)) (nm, m, false)).1 = .ok p
      ∧ (W.avail nm = true → (getPdf W s (nm, m, true)).1 = .ok p ∧ nm ∈ (getPdf W s (nm, m, true)).2.inst)
      ∧ (W.avail nm = false → getPdf W s (nm, m, true) = (.error .download, s))) := by
  intro s hn
  have hi : Inv W (chosen n h) s := inv_start W n inst h
  have hc : ∀ d, s.pdfs.lookup (nm, m, d) = none := by
    intro d
    cases hl : s.pdfs.lookup (nm, m, d) with
    | none => rfl
    | some q => exact absurd (hi.pdfs _ _ _ _ (mem_of_lookup hl)).2 hn
  refine ⟨?_, ?_, ?_, ?_⟩
  · unfold getPdf; simp [hc, pdfBody, openPdf, hn]
  · unfold getPdf
    have : (step W s (.install nm)).pdfs = s.pdfs := rfl
    rw [this, hc]
    simp [pdfBody, openPdf, step, hp]
  · intro ha; unfold getPdf; simp [hc, pdfBody, openPdf, hn, ha, hp]
  · intro ha; unfold getPdf; simp [hc, pdfBody, openPdf, hn, ha]

/-- **C138 (luminosity)** As long as the configured name is not changed, the luminosity is that of the configured set, member and
scale after every history, whatever is in the caches; and a missing set or member is reported every time. -/
theorem C138_lumi (W : World P L) (n : String) (inst : List String) (h : List Op) (hn : ∀ n', .choose n' ∈ h → n' = n) (Q2 : ℝ) (m : ℤ) :
    let s := run W (start n inst) h
    (getLumi W s Q2 m).1 = if n ∈ s.inst then (match W.lib n m with | some p => .ok (W.lum p Q2) | none => .error .noMember) else .error .notAvailable := by
  intro s
  have hi : Inv W [n] s := by
    refine inv_run ⟨?_, ?_, ?_, ?_⟩ h (fun n' hn' => by simp [hn n' hn'])
    · intro n m d p hm; exact absurd hm (by simp [start])
    · simp [start]
    · intro Q2 m l hm; exact absurd hm (by simp [start])
    · simp [start]
  have hname : s.name = n := by simpa using hi.cur
  unfold getLumi
  cases hl : s.lumis.lookup (Q2, m) with
  | some l =>
    obtain ⟨n', a, b, p, hp, e⟩ := hi.lumis Q2 m l (mem_of_lookup hl)
    have : n' = n := by simpa using a
    subst this
    simp only [if_pos b, hp, e]
  | none =>
    have hg := (C138_pdf W n inst h (n, m, false)).2.1
    have hg' := hg
    simp only [hname]
    by_cases hin : n ∈ s.inst
    · have e := hg hin
      simp only [if_pos hin]
      rcases hb : getPdf W s (n, m, false) with ⟨r, s'⟩
      have e : (getPdf W s (n, m, false)).1 = _ := e
      rw [hb] at e
      simp only at e
      rw [e]
      cases W.lib n m <;> rfl
    · simp only [if_neg hin]
      have hc : s.pdfs.lookup (n, m, false) = none := by
        cases hl : s.pdfs.lookup (n, m, false) with
        | none => rfl
        | some q => exact absurd (hi.pdfs _ _ _ _ (mem_of_lookup hl)).2 hin
      simp [getPdf, hc, pdfBody, openPdf, hin]

/-- **C138 (change of the set)** In general the luminosity is that of one of the sets configured so far. -/
theorem C138_history (W : World P L) (n : String) (inst : List String) (h : List Op) (Q2 : ℝ) (m : ℤ) (l : L) (hl : (getLumi W (run W (start n inst) h) Q2 m).1 = .ok l) :
    ∃ n' ∈ chosen n h, ∃ p, W.lib n' m = some p ∧ l = W.lum p Q2 :=
  (inv_getLumi (inv_start W n inst h) Q2 m).2 l hl

/-- **C138 (witness)** After a change of the configured set, scales and members already used give the luminosity of the old set, and
all others that of the new one: results of one session mix PDF sets. -/
theorem C138_stale_witness (W : World P L) (a b : String) (Q2 Q2' : ℝ) (m : ℤ) (pa pb : P) (ha : W.lib a m = some pa) (hb : W.lib b m = some pb) (hne : Q2' ≠ Q2) :
    let s := run W (start a [a, b]) [.lumi Q2 m, .choose b]
    s.name = b ∧ (getLumi W s Q2 m).1 = .ok (W.lum pa Q2) ∧ (getLumi W s Q2' m).1 = .ok (W.lum pb Q2') := by
  have e : run W (start a [a, b]) [.lumi Q2 m, .choose b] = ⟨b, [a, b], [((a, m, false), pa)], [((Q2, m), W.lum pa Q2)]⟩ := by
    simp [run, step, start, getLumi, getPdf, pdfBody, openPdf, ha, remember]
  intro s
  have hs : s = ⟨b, [a, b], [((a, m, false), pa)], [((Q2, m), W.lum pa Q2)]⟩ := e
  rw [hs]
  refine ⟨rfl, ?_, ?_⟩
  · simp [getLumi]
  · have h1 : ((Q2', m) == (Q2, m)) = false := by simp [hne]
    by_cases hab : b = a
    · subst hab
      rw [ha] at hb; injection hb with hb; subst hb
      simp [getLumi, List.lookup, h1, getPdf]
    · have h2 : ((b, m, false) == (a, m, false)) = false := by simp [hab]
      simp [getLumi, List.lookup, h1, getPdf, h2, pdfBody, openPdf, hb]

/-- The sets may really differ. -/
example : ∃ (W : World ℕ ℝ) (pa pb : ℕ), W.lib "NNPDF40_nnlo_as_01180" 0 = some pa ∧ W.lib "NNPDF30_nnlo_as_0118" 0 = some pb ∧ W.lum pa 1 ≠ W.lum pb 1 :=
  ⟨⟨fun n _ => if n = "NNPDF40_nnlo_as_01180" then some 1 else some 2, fun _ => true, fun p _ => p⟩, 1, 2, by simp, by simp, by norm_num⟩

/-! ## What is kept -/

theorem lookup_filter_ne {K V : Type} [DecidableEq K] [BEq K] [LawfulBEq K] (c : List (K × V)) {k k' : K} (h : k' ≠ k) :
    (c.filter fun e => e.1 ≠ k).lookup k' = c.lookup k' := by
  induction c with
  | nil => rfl
  | cons e c ih =>
    obtain ⟨a, b⟩ := e
    by_cases ha : a = k
    · subst ha
      rw [List.filter_cons_of_neg (by simp)]
      have : (k' == a) = false := beq_eq_false_iff_ne.2 h
      rw [List.lookup_cons, this, ih]
    · rw [List.filter_cons_of_pos (by simpa using ha), List.lookup_cons, List.lookup_cons, ih]

theorem lookup_remember {K V : Type} [DecidableEq K] [BEq K] [LawfulBEq K] (size : Nat) (c : List (K × V)) {k k' : K} (v : V) (h : k' ≠ k)
    (hs : (c.filter fun e => e.1 ≠ k).length < size) : (remember size c k v).lookup k' = c.lookup k' := by
  unfold remember
  rw [List.take_of_length_le (by rw [List.length_cons]; exact hs), List.lookup_cons, beq_eq_false_iff_ne.2 h, lookup_filter_ne c h]

/-- **C138 (what is kept).** A distribution that has been loaded stays loaded: as long as fewer than 128 others are in the cache, loading
one leaves every other entry of the cache as it is; and the one that was loaded last is always there. -/
theorem C138_kept (W : World P L) (s : St P L) (k : PKey) :
    (∀ k', k' ≠ k → s.pdfs.length < 128 → (getPdf W s k).2.pdfs.lookup k' = s.pdfs.lookup k') ∧
    (∀ p, (getPdf W s k).1 = .ok p → (getPdf W s k).2.pdfs.lookup k = some p) := by
  have hf : (s.pdfs.filter fun e => e.1 ≠ k).length ≤ s.pdfs.length := List.length_filter_le _ _
  constructor
  · intro k' h hs
    unfold getPdf
    split
    · exact lookup_remember 128 s.pdfs _ h (by omega)
    · split
      · exact lookup_remember 128 s.pdfs _ h (by omega)
      · rfl
  · intro p hp
    unfold getPdf at hp ⊢
    split at hp
    · rename_i q hq
      cases hp
      simp [remember, List.lookup_cons]
    · split at hp
      · cases hp
        simp [remember, List.lookup_cons]
      · cases hp

end Verif.Dileptons.Pdf
