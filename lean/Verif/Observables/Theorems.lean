import Verif.Observables.Model
import Verif.Py.ExceptLemmas
import Mathlib.Data.List.Induction

/-!
# Property theorems about observables, predictions and implementations (C15–C20, C69)
-/
set_option linter.unusedSectionVars false
set_option linter.unusedSimpArgs false
namespace Verif.Observables
open Verif.Py

variable {A V : Type}

/-! ## Well-formed worlds: registries point into the heaps -/

/-- Invariant of every reachable state: registry addresses exist. (Specification.) -/
structure World.WF (w : World A V) : Prop where
  obs : ∀ n a, w.obsReg.get? n = some a → a < w.obsHeap.length
  impl : ∀ n a, w.implReg.get? n = some a → a < w.implHeap.length

/-- The state-changing calls of this part of the API. (Specification.) -/
inductive WOp (A V : Type) where
  | observable (n : String) (args : Option (List String))
  | prediction (n : String) (f : A → Except PyErr V)
  | fromFunction (n : String) (os : List String) (g : List V → Except PyErr V)
  | implementation (n q : String) (f : A → Except PyErr V)
  | quantity (n : String)
  | setConfig (q i : String)

/-- Effect of a call (including the effect of a call that raises). (Specification.) -/
def wstep (w : World A V) : WOp A V → World A V
  | .observable n args => (newObservable w n args).1
  | .prediction n f => (newPrediction w n f).1
  | .fromFunction n os g => (Observables.fromFunction w n os g).1
  | .implementation n q f => (newImplementation w n q f).1
  | .quantity n => { w with quantities := w.quantities ++ [n] }
  | .setConfig q i => { w with config := w.config.set q i }

/-- Initial state. (Specification.) -/
def World.empty : World A V := ⟨[], [], [], [], [], []⟩

theorem wf_newObservable {w : World A V} (h : w.WF) (n : String) (args : Option (List String)) :
    (newObservable w n args).1.WF := by
  refine ⟨fun m a hm => ?_, h.impl⟩
  simp only [newObservable] at hm ⊢
  rw [Dict.get?_set] at hm
  split at hm
  · cases hm; simp
  · have := h.obs m a hm; simp; omega

theorem wf_newPrediction {w : World A V} (h : w.WF) (n : String) (f : A → Except PyErr V) :
    (newPrediction w n f).1.WF := by
  unfold newPrediction
  split
  · exact h
  · exact ⟨fun m a hm => by simpa using h.obs m a hm, h.impl⟩

theorem wf_newPrediction' {w w' : World A V} (h : w.WF) {n : String} {f : A → Except PyErr V}
    {e : Option PyErr} (he : newPrediction w n f = (w', e)) : w'.WF := by
  have := wf_newPrediction h n f
  rwa [he] at this

/-- Every reachable state is well-formed. -/
theorem wf_reachable (h : List (WOp A V)) : (h.foldl wstep World.empty).WF := by
  suffices H : ∀ (h : List (WOp A V)) (w : World A V), w.WF → (h.foldl wstep w).WF from
    H h _ ⟨by simp [World.empty], by simp [World.empty]⟩
  intro h
  induction h with
  | nil => intro w hw; exact hw
  | cons op h ih =>
    intro w hw
    apply ih
    cases op with
    | observable n args => exact wf_newObservable hw n args
    | prediction n f => exact wf_newPrediction hw n f
    | fromFunction n os g =>
      simp only [wstep, fromFunction]
      split
      · exact hw
      · split
        · exact hw
        · split
          · exact wf_newObservable hw _ _
          · split
            · rename_i heq
              exact wf_newPrediction' (wf_newObservable hw _ _) heq
            · rename_i heq
              exact wf_newPrediction' (wf_newObservable hw _ _) heq
    | implementation n q f =>
      simp only [wstep, newImplementation]
      split
      · refine ⟨hw.obs, fun m a hm => ?_⟩
        simp only at hm ⊢
        rw [Dict.get?_set] at hm
        split at hm
        · cases hm; simp
        · have := hw.impl m a hm; simp; omega
      · refine ⟨hw.obs, fun m a hm => ?_⟩
        simp only at hm ⊢
        rw [Dict.get?_set] at hm
        split at hm
        · cases hm; simp
        · have := hw.impl m a hm; simp; omega
    | quantity n => exact ⟨hw.obs, hw.impl⟩
    | setConfig q i => exact ⟨hw.obs, hw.impl⟩

/-! ## C17 -/

/-- The conditions under which `from_function` is documented to work: all components exist, have
predictions and the same arguments. (Specification.) -/
structure Combinable (w : World A V) (os : List String) (args : Option (List String))
    (fs : List (A → Except PyErr V)) : Prop where
  nonempty : os ≠ []
  comp : List.Forall₂ (fun n f => ∃ o, w.obs? n = some o ∧ o.arguments = args ∧ o.prediction = some f) os fs

theorem obs?_newObservable {w : World A V} (h : w.WF) (n m : String) (args : Option (List String)) :
    (newObservable w n args).1.obs? m = if n = m then some ⟨n, args, none⟩ else w.obs? m := by
  unfold World.obs? newObservable
  simp only [Dict.get?_set]
  split
  · simp
  · cases hm : w.obsReg.get? m with
    | none => rfl
    | some a =>
      simp only [Option.bind_some]
      rw [List.getElem?_append_left (h.obs m a hm)]

theorem obs?_newPrediction {w : World A V} (n m : String) (f : A → Except PyErr V) {a : Nat}
    (ha : w.obsReg.get? n = some a) (hu : m = n ∨ w.obsReg.get? m ≠ some a) :
    (newPrediction w n f).1.obs? m =
      if n = m then (w.obs? m).map (fun o => { o with prediction := some f }) else w.obs? m := by
  unfold newPrediction World.obs?
  simp only [ha]
  by_cases hm : n = m
  · subst hm
    simp only [if_true, ha, Option.bind_some]
    rw [List.getElem?_modify]
    simp
  · rw [if_neg hm]
    have hu : w.obsReg.get? m ≠ some a := by
      rcases hu with rfl | hu
      · exact absurd rfl hm
      · exact hu
    cases hb : w.obsReg.get? m with
    | none => rfl
    | some b =>
      simp only [Option.bind_some]
      rw [List.getElem?_modify]
      have : a ≠ b := fun h => hu (by rw [hb, h])
      simp [this]

/-- **C17.** If all components exist, share their arguments and have predictions, and the new name is
not among them, then `from_function` succeeds: the new observable has the common arguments and its
prediction at every point `x` (Wilson coefficients, parameters, arguments) is `g` of the component
predictions in order; every other observable keeps its arguments and prediction. -/
theorem C17_from_function_partial (w : World A V) (hw : w.WF) (name : String) (os : List String)
    (g : List V → Except PyErr V) (args : Option (List String)) (fs : List (A → Except PyErr V))
    (hc : Combinable w os args fs) (hname : name ∉ os) :
    ∃ w' addr, fromFunction w name os g = (w', .ok addr) ∧
      (w'.obs? name).map (·.arguments) = some args ∧
      (∀ x, predict w' name x = (os.mapM fun n => predict w n x) >>= g) ∧
      (∀ m, m ≠ name → w'.obs? m = w.obs? m) := by
  obtain ⟨hne, hcomp⟩ := hc
  match os, hne with
  | first :: rest, _ =>
  have hfirst : ∃ o, w.obs? first = some o ∧ o.arguments = args := by
    cases hcomp with
    | cons h1 h2 => obtain ⟨o, h1, h2, -⟩ := h1; exact ⟨o, h1, h2⟩
  obtain ⟨o₀, ho₀, hargs₀⟩ := hfirst
  have hcheck : ((first :: rest).mapM (checkComponent w first)) = .ok ((first :: rest).map fun _ => ()) := by
    rw [mapM_ok_iff, List.forall₂_map_right_iff, List.forall₂_same]
    intro n hn
    obtain ⟨f, -, o, h1, h2, h3⟩ := forall₂_mem_left hcomp hn
    unfold checkComponent
    simp [h1, ho₀, h2, hargs₀, h3]
  let w₁ := (newObservable w name ((w.obs? first).bind (·.arguments))).1
  have hw₁ : ∀ m, w₁.obs? m = if name = m then some ⟨name, args, none⟩ else w.obs? m := by
    intro m
    have := obs?_newObservable hw name m ((w.obs? first).bind (·.arguments))
    rw [ho₀] at this
    simp only [Option.bind_some, hargs₀] at this
    simpa [w₁, ho₀, hargs₀] using this
  have hfs : componentFunctions w₁ (first :: rest) = .ok fs := by
    unfold componentFunctions
    rw [mapM_ok_iff]
    have hmem : ∀ n ∈ first :: rest, name ≠ n := fun n hn h => hname (h ▸ hn)
    revert hcomp hmem
    generalize (first :: rest) = l
    intro hcomp hmem
    clear hcheck
    induction hcomp with
    | nil => exact .nil
    | cons h1 _ ih =>
      obtain ⟨o, h1, h2, h3⟩ := h1
      refine .cons ?_ (ih fun n hn => hmem n (by simp [hn]))
      rw [hw₁, if_neg (hmem _ (by simp)), h1]
      simp [h3]
  have hreg : w₁.obsReg.get? name = some w.obsHeap.length := by simp [w₁, newObservable]
  have huniq : ∀ m, m = name ∨ w₁.obsReg.get? m ≠ some w.obsHeap.length := by
    intro m
    by_cases hm : m = name
    · exact Or.inl hm
    · right
      simp only [w₁, newObservable]
      rw [Dict.get?_set_ne _ _ (Ne.symm hm)]
      intro h
      have := hw.obs m _ h
      omega
  have hpred := fun (F : A → Except PyErr V) m => obs?_newPrediction (w := w₁) name m F hreg (huniq m)
  let F : A → Except PyErr V := fun x => (fs.mapM fun f => f x) >>= g
  refine ⟨(newPrediction w₁ name F).1, w.obsHeap.length, ?_, ?_, ?_, ?_⟩
  · unfold fromFunction
    simp only [hcheck]
    have : newObservable w name ((w.obs? first).bind (·.arguments)) = (w₁, w.obsHeap.length) := rfl
    simp only [this, hfs]
    have h2 : newPrediction w₁ name F = ((newPrediction w₁ name F).1, none) := by
      unfold newPrediction; simp [hreg]
    show (match newPrediction w₁ name F with
      | (w₂, some e) => (w₂, Except.error e)
      | (w₂, none) => (w₂, Except.ok w.obsHeap.length)) = _
    rw [h2]
  · rw [hpred F name, if_pos rfl, hw₁, if_pos rfl]; rfl
  · intro x
    have h1 : predict (newPrediction w₁ name F).1 name x = F x := by
      unfold predict
      rw [hpred F name, if_pos rfl, hw₁, if_pos rfl]
      rfl
    rw [h1]
    show (fs.mapM fun f => f x) >>= g = _
    congr 1
    clear h1 hcheck hfs hname ho₀
    revert hcomp
    generalize (first :: rest) = l
    intro hcomp
    induction hcomp with
    | nil => rfl
    | cons h1 _ ih =>
      obtain ⟨o, h1, h2, h3⟩ := h1
      rw [List.mapM_cons, List.mapM_cons, ih]
      congr 1
      unfold predict
      simp [h1, h3]
  · intro m hm
    rw [hpred F m, if_neg (Ne.symm hm), hw₁, if_neg (Ne.symm hm)]

/-- **C17.** If a component is missing, has other arguments than the first one or no prediction (or
the list is empty), `from_function` raises and nothing is registered or changed. -/
theorem C17_from_function_rejects (w : World A V) (name : String) (os : List String)
    (g : List V → Except PyErr V)
    (hbad : os = [] ∨ ∃ n ∈ os, w.obs? n = none ∨
      (∃ o o₀, w.obs? n = some o ∧ os.head?.bind w.obs? = some o₀ ∧ o.arguments ≠ o₀.arguments) ∨
      (∃ o, w.obs? n = some o ∧ o.prediction = none)) :
    (fromFunction w name os g).1 = w ∧ raises (fromFunction w name os g).2 := by
  match os with
  | [] => exact ⟨rfl, ⟨_, rfl⟩⟩
  | first :: rest =>
    rcases hbad with h | ⟨n, hn, hbad⟩
    · simp at h
    have hr : raises (checkComponent w first n) := by
      unfold checkComponent
      rcases hbad with h | ⟨o, o₀, h1, h2, h3⟩ | ⟨o, h1, h2⟩
      · exact ⟨_, by rw [h]⟩
      · simp only [List.head?_cons, Option.bind_some] at h2
        exact ⟨_, by rw [h1, h2]; simp [h3]; rfl⟩
      · rw [h1]
        cases w.obs? first with
        | none => exact ⟨_, rfl⟩
        | some o₀ =>
          simp only
          split
          · exact ⟨_, rfl⟩
          · rw [h2]; exact ⟨.assertionError, rfl⟩
    obtain ⟨e, he⟩ := mapM_raises _ _ hn hr
    unfold fromFunction
    simp only [he]
    exact ⟨trivial, ⟨_, rfl⟩⟩

/-- Later predictions for a component do not change a composite observable that was already built. -/
theorem C17_components_captured (w : World A V) (name n : String) (f : A → Except PyErr V) {a : Nat}
    (ha : w.obsReg.get? n = some a) (hne : w.obsReg.get? name ≠ some a) (x : A) :
    predict (newPrediction w n f).1 name x = predict w name x := by
  unfold predict
  rw [obs?_newPrediction n name f ha (Or.inr hne)]
  rw [if_neg]
  rintro rfl
  exact hne ha

/-- **C17 fails when the new name is one of the components**: the observable is replaced by one
without prediction before its own prediction is read, the call raises `AttributeError` and the old
prediction is lost. -/
theorem C17_name_among_components :
    let w : World Unit Int := wstep (wstep .empty (.observable "O" none)) (.prediction "O" fun _ => .ok 1)
    let r := fromFunction w "O" ["O"] (fun l => .ok (l.sum))
    predict w "O" () = .ok 1 ∧ r.2 = .error .attributeError ∧ predict r.1 "O" () = .error .attributeError := by
  decide

/-- Non-vacuity: two observables `a`, `b` with predictions 3 and 4. -/
def exWorld : World Unit Int :=
  [WOp.observable "a" (some ["q2"]), .prediction "a" (fun _ => .ok 3), .observable "b" (some ["q2"]),
   .prediction "b" (fun _ => .ok 4)].foldl wstep .empty

example : exWorld.WF ∧ Combinable exWorld ["a", "b"] (some ["q2"]) [fun _ => .ok 3, fun _ => .ok 4] := by
  refine ⟨wf_reachable _, ⟨by simp, ?_⟩⟩
  exact .cons ⟨_, rfl, rfl, rfl⟩ (.cons ⟨_, rfl, rfl, rfl⟩ .nil)
example : predict (fromFunction exWorld "d" ["a", "b"] (fun l => .ok (l.getD 0 0 - l.getD 1 0))).1 "d" ()
    = .ok (-1) := by decide

/-! ## C15 -/

/-- **C15 is false of `Implementation`**: after the failed construction of an implementation named
like an existing one, the registry maps the name to a broken instance and the old one is lost. -/
theorem C15_failed_implementation_overwrites :
    let w : World Unit Int := [WOp.quantity "ff", .implementation "I" "ff" (fun _ => .ok 7),
      .setConfig "ff" "I"].foldl wstep .empty
    let r := newImplementation w "I" "no such quantity" (fun _ => .ok 8)
    auxPrediction w "ff" () = .ok 7 ∧ r.2 = some .valueError ∧
      auxPrediction r.1 "ff" () = .error .attributeError := by
  decide

/-- **C15, the part that holds for implementations** (missing: the entry of the name itself): a failed
construction leaves every other implementation and all other registries unchanged. -/
theorem C15_failed_implementation_partial (w : World A V) (hw : w.WF) (n q : String)
    (f : A → Except PyErr V) (hq : q ∉ w.quantities) :
    (newImplementation w n q f).2 = some .valueError ∧
    (∀ m, m ≠ n → (newImplementation w n q f).1.implReg.get? m = w.implReg.get? m ∧
      ∀ a, w.implReg.get? m = some a → (newImplementation w n q f).1.implHeap[a]? = w.implHeap[a]?) ∧
    (newImplementation w n q f).1.obsReg = w.obsReg ∧
    (newImplementation w n q f).1.obsHeap = w.obsHeap ∧
    (newImplementation w n q f).1.quantities = w.quantities := by
  unfold newImplementation
  simp only [hq, if_false, true_and]
  refine ⟨fun m hm => ⟨Dict.get?_set_ne _ _ (Ne.symm hm), fun a ha => ?_⟩, trivial⟩
  rw [List.getElem?_append_left (hw.impl m a ha)]

/-- **C15 for predictions** holds: a `Prediction` for an unknown observable raises `ValueError` and
changes nothing. -/
theorem C15_failed_prediction (w : World A V) (n : String) (f : A → Except PyErr V)
    (hn : w.obsReg.get? n = none) : newPrediction w n f = (w, some .valueError) := by
  unfold newPrediction; rw [hn]

example : "no such quantity" ∉ exWorld.quantities ∧ exWorld.obsReg.get? "zz" = none := by decide

/-! ## C69 -/

/-- **C69.** The prediction of an auxiliary quantity is that of the implementation configured for it:
after registering an implementation under `i` and configuring it, the quantity evaluates to its
function; without configuration or with an unknown implementation it raises `KeyError`. -/
theorem C69_configured_implementation (w : World A V) (q i : String) (f : A → Except PyErr V)
    (hq : q ∈ w.quantities) (x : A) :
    auxPrediction (wstep (wstep w (.implementation i q f)) (.setConfig q i)) q x = f x ∧
    (w.config.get? q = none → auxPrediction w q x = .error .keyError) ∧
    (∀ j, w.config.get? q = some j → w.implReg.get? j = none → auxPrediction w q x = .error .keyError) := by
  refine ⟨?_, ?_, ?_⟩
  · simp only [wstep, newImplementation, hq, if_true, auxPrediction, Dict.get?_set_self, Option.bind_some]
    simp
  · intro h; simp [auxPrediction, h]
  · intro j h1 h2; simp [auxPrediction, h1, h2]

/-! ## C16 -/

/-- **C16 is false of the code**: of two implementations of one quantity only the last is listed. -/
theorem C16_show_all_drops :
    let w : World Unit Int := [WOp.quantity "ff", .implementation "I" "ff" (fun _ => .ok 7),
      .implementation "J" "ff" (fun _ => .ok 8)].foldl wstep .empty
    showAll w = .ok [("ff", [("J", "")])] := by
  decide

/-- All registered implementations as (name, object) pairs, in registration order. (Specification.) -/
def implementations (w : World A V) : List (String × ImplObj A V) :=
  w.implReg.filterMap fun e => (w.implHeap[e.2]?).map fun o => (e.1, o)

/-- The exact behaviour: if no entry is broken, `show_all` lists for each quantity the last
registered implementation only. -/
theorem C16_show_all_last (w : World A V) (hw : w.WF) (hwf : Dict.WF w.implReg)
    (hok : ∀ e ∈ implementations w, e.2.quantity ≠ none) :
    ∃ d, showAll w = .ok d ∧ ∀ q, d.get? q =
      ((implementations w).reverse.find? fun e => decide (e.2.quantity = some q)).map
        fun e => [(e.1, e.2.description)] := by
  unfold showAll implementations at *
  have hin : ∀ e ∈ w.implReg, ∃ o, w.implHeap[e.2]? = some o := by
    intro e he
    have := hw.impl e.1 e.2 (Dict.get?_of_mem hwf he)
    exact ⟨_, List.getElem?_eq_getElem this⟩
  revert hok hin
  generalize w.implReg = l
  intro hok hin
  suffices H : ∀ (l : Dict String Nat) (d : Dict String (Dict String String)),
      (∀ e ∈ l, ∃ o, w.implHeap[e.2]? = some o ∧ o.quantity ≠ none) →
      ∃ d', l.foldlM (fun d e =>
        match w.implHeap[e.2]? with
        | none => .error .keyError
        | some o => match o.quantity with
          | none => .error .attributeError
          | some q => .ok (d.set q [(e.1, o.description)])) d = (Except.ok d' : Except PyErr _) ∧
        ∀ q, d'.get? q = (((l.filterMap fun e => (w.implHeap[e.2]?).map fun o => (e.1, o)).reverse.find?
          fun e => decide (e.2.quantity = some q)).map fun e => [(e.1, e.2.description)]).or (d.get? q) by
    obtain ⟨d', h1, h2⟩ := H l [] (by
      intro e he
      obtain ⟨o, ho⟩ := hin e he
      exact ⟨o, ho, hok (e.1, o) (List.mem_filterMap.2 ⟨e, he, by rw [ho]; rfl⟩)⟩)
    exact ⟨d', h1, fun q => by rw [h2 q]; simp⟩
  intro l
  induction l with
  | nil => intro d _; exact ⟨d, rfl, fun q => by simp⟩
  | cons e l ih =>
    intro d hl
    obtain ⟨o, ho, hq⟩ := hl e (by simp)
    obtain ⟨q₀, hq₀⟩ := Option.ne_none_iff_exists'.1 hq
    obtain ⟨d', h1, h2⟩ := ih (d.set q₀ [(e.1, o.description)]) fun e he => hl e (by simp [he])
    refine ⟨d', ?_, fun q => ?_⟩
    · rw [List.foldlM_cons]
      simp only [ho, hq₀]
      exact h1
    · rw [h2 q, List.filterMap_cons, ho]
      simp only [Option.map_some, List.reverse_cons, List.find?_append, Dict.get?_set]
      cases List.find? (fun e => decide (e.2.quantity = some q))
        (List.filterMap (fun e => Option.map (fun o => (e.1, o)) w.implHeap[e.2]?) l).reverse with
      | some y => simp
      | none =>
        simp only [Option.map_none, Option.none_or, List.find?_cons, List.find?_nil, hq₀,
          Option.some.injEq]
        by_cases hqq : q₀ = q <;> simp [hqq]

/-- **C16, the part that holds** (missing: quantities with several implementations): an
implementation that is the only one of its quantity is listed under it. -/
theorem C16_show_all_partial (w : World A V) (hw : w.WF) (hwf : Dict.WF w.implReg)
    (hok : ∀ e ∈ implementations w, e.2.quantity ≠ none)
    (e : String × ImplObj A V) (q : String) (he : e ∈ implementations w) (hq : e.2.quantity = some q)
    (honly : ∀ e' ∈ implementations w, e'.2.quantity = some q → e' = e) :
    ∃ d, showAll w = .ok d ∧ d.get? q = some [(e.1, e.2.description)] := by
  obtain ⟨d, h1, h2⟩ := C16_show_all_last w hw hwf hok
  refine ⟨d, h1, ?_⟩
  rw [h2 q]
  cases hf : (implementations w).reverse.find? fun e => decide (e.2.quantity = some q) with
  | none =>
    rw [List.find?_eq_none] at hf
    exact absurd (hf e (by simp [he])) (by simp [hq])
  | some e' =>
    have hm := List.mem_of_find?_eq_some hf
    have hp := List.find?_some hf
    simp only [decide_eq_true_eq] at hp
    rw [honly e' (by simpa using hm) hp]
    rfl

example : let w : World Unit Int := [WOp.quantity "ff", .implementation "I" "ff" (fun _ => .ok 7),
      .quantity "gg", .implementation "J" "gg" (fun _ => .ok 8)].foldl wstep .empty
    w.WF ∧ showAll w = .ok [("ff", [("I", "")]), ("gg", [("J", "")])] :=
  ⟨wf_reachable _, by decide⟩

/-! ## C18 -/

theorem get?_tupleDict (n : String) (as : List String) (xs : List V) (hlen : as.length = xs.length)
    (hnd : as.Nodup) (hname : "name" ∉ as) :
    (tupleDict n as xs).get? "name" = some (.name n) ∧
    ∀ (i : Nat) a, as[i]? = some a → (tupleDict n as xs).get? a = xs[i]?.map PVal.num := by
  have hfold : tupleDict n as xs =
      (((as.zip xs).map fun e => (e.1, PVal.num e.2))).foldl (fun d e => Dict.set d e.1 e.2)
        [("name", .name n)] := by
    unfold tupleDict; rw [List.foldl_map]
  have hkeys : ((as.zip xs).map fun e => (e.1, PVal.num e.2)).map Prod.fst = as := by
    rw [List.map_map]
    have : (Prod.fst ∘ fun e : String × V => (e.1, PVal.num e.2)) = Prod.fst := rfl
    rw [this, List.map_fst_zip (by omega)]
  have hwf : Dict.WF ((as.zip xs).map fun e => (e.1, PVal.num e.2)).reverse := by
    unfold Dict.WF Dict.keys
    rw [List.map_reverse, hkeys]
    exact (List.reverse_perm as).nodup_iff.2 hnd
  rw [hfold]
  constructor
  · rw [Dict.foldl_set_get?, (Dict.get?_eq_none_iff _ _).2]
    · rfl
    · unfold Dict.keys; rw [List.map_reverse, hkeys, List.mem_reverse]; exact hname
  · intro i a hi
    have hil : i < as.length := (List.getElem?_eq_some_iff.1 hi).1
    have hx : xs[i]? = some (xs[i]'(by omega)) := List.getElem?_eq_getElem (by omega)
    rw [Dict.foldl_set_get?, hx]
    have hm : (a, PVal.num (xs[i]'(by omega))) ∈ ((as.zip xs).map fun e => (e.1, PVal.num e.2)).reverse := by
      rw [List.mem_reverse, List.mem_map]
      refine ⟨(a, xs[i]'(by omega)), ?_, rfl⟩
      rw [List.mem_iff_getElem?]
      exact ⟨i, by rw [List.getElem?_zip_eq_some]; exact ⟨hi, hx⟩⟩
    rw [Dict.get?_of_mem hwf hm]
    rfl

/-- **C18.** For an observable with (distinct) arguments none of which is called `'name'`: a tuple
with the right number of values is converted to a dictionary that is accepted again and gives back
the same tuple (and list). -/
theorem C18_tuple_dict_tuple (args : String → Option (Option (List String))) (n : String)
    (as : List String) (xs : List V) (ha : args n = some (some as)) (hlen : as.length = xs.length)
    (hnd : as.Nodup) (hname : "name" ∉ as) :
    ∃ d, argumentFormat args (.tup n xs) .dict = .ok (.dict d) ∧
      argumentFormat args (.dict d) .tuple = .ok (.tup (.name n :: xs.map .num)) ∧
      argumentFormat args (.dict d) .list = .ok (.lst (.name n :: xs.map .num)) ∧
      argumentFormat args (.tup n xs) .tuple = .ok (.tup (.name n :: xs.map .num)) := by
  obtain ⟨h1, h2⟩ := get?_tupleDict n as xs hlen hnd hname
  have hxs : (as.mapM fun a => Dict.getItem (tupleDict n as xs) a) = .ok (xs.map PVal.num) := by
    rw [mapM_ok_iff, List.forall₂_iff_get]
    refine ⟨by simp [hlen], fun i hi hi' => ?_⟩
    have hi : i < as.length := hi
    have := h2 i as[i] (List.getElem?_eq_getElem hi)
    rw [List.getElem?_eq_getElem (by omega)] at this
    simp only [Dict.getItem, List.get_eq_getElem, this, Option.map_some, List.getElem_map]
  refine ⟨tupleDict n as xs, ?_, ?_, ?_, ?_⟩
  · simp [argumentFormat, ha, hlen, fmtSelect]
  · simp only [argumentFormat, h1, ha, hxs]; rfl
  · simp only [argumentFormat, h1, ha, hxs]; rfl
  · simp [argumentFormat, ha, hlen, fmtSelect]

/-- **C18.** A dictionary with a name and numbers for all arguments is converted to a tuple that is
accepted again and whose dictionary form has the same name and the same argument values. -/
theorem C18_dict_tuple_dict (args : String → Option (Option (List String))) (n : String)
    (as : List String) (d : Dict String (PVal V)) (xs : List V) (ha : args n = some (some as))
    (hn : d.get? "name" = some (.name n)) (hlen : as.length = xs.length)
    (hx : ∀ (i : Nat) a, as[i]? = some a → d.get? a = xs[i]?.map PVal.num)
    (hnd : as.Nodup) (hname : "name" ∉ as) :
    argumentFormat args (.dict d) .tuple = .ok (.tup (.name n :: xs.map .num)) ∧
    ∃ d', argumentFormat args (.tup n xs) .dict = .ok (.dict d') ∧
      ∀ k, k = "name" ∨ k ∈ as → d'.get? k = d.get? k := by
  obtain ⟨h1, h2⟩ := get?_tupleDict n as xs hlen hnd hname
  have hxs : (as.mapM fun a => Dict.getItem d a) = .ok (xs.map PVal.num) := by
    rw [mapM_ok_iff, List.forall₂_iff_get]
    refine ⟨by simp [hlen], fun i hi hi' => ?_⟩
    have hi : i < as.length := hi
    have := hx i as[i] (List.getElem?_eq_getElem hi)
    rw [List.getElem?_eq_getElem (by omega)] at this
    simp only [Dict.getItem, List.get_eq_getElem, this, Option.map_some, List.getElem_map]
  refine ⟨by simp only [argumentFormat, hn, ha, hxs]; rfl, tupleDict n as xs, ?_, ?_⟩
  · simp [argumentFormat, ha, hlen, fmtSelect]
  · rintro k (rfl | hk)
    · rw [h1, hn]
    · obtain ⟨i, hi, rfl⟩ := List.mem_iff_getElem.1 hk
      rw [h2 i _ (List.getElem?_eq_getElem hi), hx i _ (List.getElem?_eq_getElem hi)]

/-- **C18.** A tuple with the wrong number of arguments, and a bare string for an observable with
arguments, are rejected with `ValueError`. -/
theorem C18_rejects (args : String → Option (Option (List String))) (n : String) (xs : List V) (fmt : Fmt) :
    (args n = some none → argumentFormat args (.tup n xs) fmt = .error .valueError) ∧
    (∀ as, args n = some (some as) → as.length ≠ xs.length →
      argumentFormat args (.tup n xs) fmt = .error .valueError) ∧
    (∀ as, args n = some (some as) → argumentFormat (V := V) args (.str n) fmt = .error .valueError) := by
  refine ⟨fun h => by simp [argumentFormat, h], fun as h hl => by simp [argumentFormat, h, hl],
    fun as h => by simp [argumentFormat, h]⟩

/-- For observables without arguments: string → dict → tuple form is the string again ... -/
theorem C18_no_arguments (args : String → Option (Option (List String))) (n : String)
    (h : args n = some none) :
    argumentFormat (V := V) args (.str n) .dict = .ok (.dict [("name", .name n)]) ∧
    argumentFormat (V := V) args (.dict [("name", .name n)]) .tuple = .ok (.str n) := by
  constructor <;> simp [argumentFormat, h, Dict.get?_cons, fmtSelect]

/-- ... but the list form of the dictionary is the list of *characters* of the name. -/
theorem C18_dict_without_arguments_as_list :
    argumentFormat (V := Nat) (fun _ => some none) (.dict [("name", .name "eps")]) .list =
      .ok (.chars ['e', 'p', 's']) := by decide

example : (∃ d, argumentFormat (V := Nat) (fun _ => some (some ["q2min", "q2max"])) (.tup "obs" [1, 6]) .dict
    = .ok (.dict d)) ∧ ["q2min", "q2max"].Nodup ∧ "name" ∉ ["q2min", "q2max"] := ⟨⟨_, rfl⟩, by decide, by decide⟩

/-! ## C19 -/

theorem children_node (cs : List (String × Tree)) : (Tree.node cs).children = cs := rfl

theorem hasPath_addPath (t : Tree) (p q : List String) :
    (t.addPath p).hasPath q = true ↔ t.hasPath q = true ∨ q <+: p := by
  induction p generalizing t q with
  | nil =>
    simp only [Tree.addPath, List.prefix_nil]
    constructor
    · exact Or.inl
    · rintro (h | rfl)
      · exact h
      · cases t; rfl
  | cons k ks ih =>
    cases q with
    | nil => simp [Tree.hasPath]
    | cons k' ks' =>
      simp only [Tree.addPath, Tree.hasPath, children_node, Dict.get?_set]
      by_cases hk : k = k'
      · subst hk
        simp only [if_true, ih, List.cons_prefix_cons, true_and]
        cases hg : Dict.get? t.children k with
        | none =>
          simp only [Option.getD_none, Bool.false_eq_true, false_or]
          constructor
          · rintro (h | h)
            · cases ks' with
              | nil => exact List.nil_prefix
              | cons a b => simp [Tree.hasPath, Tree.children] at h
            · exact h
          · exact Or.inr
        | some t' => simp
      · simp only [hk, if_false, List.cons_prefix_cons, Ne.symm hk, false_and, or_false]

/-- **C19.** After any sequence of `add_taxonomy` calls, the nested dictionary contains exactly the
prefixes of the added paths. -/
theorem C19_taxonomy (paths : List (List String)) (q : List String) :
    (taxonomyRun paths).hasPath q = true ↔ q = [] ∨ ∃ p ∈ paths, q <+: p := by
  unfold taxonomyRun
  suffices H : ∀ (paths : List (List String)) (t : Tree),
      (paths.foldl Tree.addPath t).hasPath q = true ↔ t.hasPath q = true ∨ ∃ p ∈ paths, q <+: p by
    rw [H]
    cases q with
    | nil => simp [Tree.hasPath]
    | cons a b => simp [Tree.hasPath, Tree.children]
  intro paths
  induction paths with
  | nil => intro t; simp
  | cons p ps ih =>
    intro t
    rw [List.foldl_cons, ih, hasPath_addPath]
    simp only [List.mem_cons, exists_eq_or_imp, or_assoc]

theorem dict_set_self {K W : Type} [DecidableEq K] (d : Dict K W) (k : K) (v : W) (h : d.get? k = some v) :
    d.set k v = d := by
  induction d with
  | nil => simp at h
  | cons e d ih =>
    obtain ⟨a, b⟩ := e
    rw [Dict.get?_cons] at h
    simp only [Dict.set]
    split at h
    · rename_i hk; cases h; simp [hk]
    · rename_i hk; simp [hk, ih h]

/-- **C19.** Adding a path that is already contained (for instance adding the same taxonomy twice)
changes nothing, not even the order. -/
theorem C19_idempotent (t : Tree) (p : List String) (h : t.hasPath p = true) : t.addPath p = t := by
  induction p generalizing t with
  | nil => rfl
  | cons k ks ih =>
    simp only [Tree.hasPath] at h
    cases hg : Dict.get? t.children k with
    | none => rw [hg] at h; simp at h
    | some t' =>
      rw [hg] at h
      simp only [Tree.addPath, hg, Option.getD_some, ih t' h, dict_set_self _ _ _ hg]
      cases t; rfl

example : (taxonomyRun [["B", "rare", "obs1"], ["B", "tree", "obs2"]]).hasPath ["B", "tree"] = true := by
  decide
example : (taxonomyRun [["B", "rare", "obs1"]]).hasPath ["rare"] = false := by decide

/-! ## C20 -/

/-- **C20.** `get_measurements` lists each measurement once, in registry order, and exactly those
that constrain the observable (by name or as a tuple with arguments). -/
theorem C20_get_measurements [DecidableEq V] (self : String) (ms : Dict String (List (ObsName V)))
    (hwf : Dict.WF ms) :
    (getMeasurements self ms).Sublist ms.keys ∧ (getMeasurements self ms).Nodup ∧
    ∀ n, n ∈ getMeasurements self ms ↔ ∃ ps, ms.get? n = some ps ∧
      (ObsName.str self ∈ ps ∨ ∃ xs, ObsName.tup self xs ∈ ps) := by
  have hsub : (getMeasurements self ms).Sublist ms.keys := by
    unfold getMeasurements Dict.keys
    clear hwf
    induction ms with
    | nil => simp
    | cons e ms ih =>
      simp only [List.filterMap_cons, List.map_cons]
      split
      · rename_i heq; exact ih.cons _
      · rename_i b heq
        split at heq
        · cases heq; exact ih.cons_cons _
        · split at heq
          · cases heq; exact ih.cons_cons _
          · simp at heq
  refine ⟨hsub, hwf.sublist hsub, fun n => ?_⟩
  unfold getMeasurements
  rw [List.mem_filterMap]
  have hany : ∀ ps : List (ObsName V), (ps.any fun o => match o with
      | .str _ => false
      | .tup n _ => decide (n = self)) = true ↔ ∃ xs, ObsName.tup self xs ∈ ps := by
    intro ps
    rw [List.any_eq_true]
    constructor
    · rintro ⟨o, ho, h⟩
      cases o with
      | str _ => simp at h
      | tup m xs => simp only [decide_eq_true_eq] at h; subst h; exact ⟨xs, ho⟩
    · rintro ⟨xs, h⟩; exact ⟨_, h, by simp⟩
  constructor
  · rintro ⟨⟨m, ps⟩, he, h⟩
    simp only at h
    split at h
    · rename_i h1; cases h; exact ⟨ps, Dict.get?_of_mem hwf he, Or.inl h1⟩
    · split at h
      · rename_i h1; cases h; exact ⟨ps, Dict.get?_of_mem hwf he, Or.inr ((hany ps).1 h1)⟩
      · simp at h
  · rintro ⟨ps, hg, h⟩
    refine ⟨(n, ps), Dict.mem_of_get? hg, ?_⟩
    simp only
    split
    · rfl
    · rename_i h1
      rw [if_pos]
      rcases h with h | h
      · exact absurd h h1
      · exact (hany ps).2 h

example : getMeasurements "O" [("m1", [ObsName.str "O"]), ("m2", [ObsName.str "P"]),
    ("m3", [ObsName.str "P", ObsName.tup "O" [1, 6]])] = ["m1", "m3"] := by decide

end Verif.Observables
