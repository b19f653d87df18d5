import Verif.Py.Basic
import Mathlib.Data.List.Forall2

/-! # `mapM`/`foldlM` in the exception monad -/
namespace Verif.Py

/-- A comprehension succeeds iff every element's evaluation does; the result is elementwise. -/
theorem mapM_ok_iff {α β : Type _} (f : α → Except PyErr β) (l : List α) (r : List β) :
    l.mapM f = .ok r ↔ List.Forall₂ (fun a b => f a = .ok b) l r := by
  induction l generalizing r with
  | nil =>
    simp only [List.mapM_nil, List.forall₂_nil_left_iff]
    constructor
    · intro h; cases h; rfl
    · rintro rfl; rfl
  | cons a l ih =>
    rw [List.mapM_cons]
    cases ha : f a with
    | error e =>
      constructor
      · intro h; simp [bind, Except.bind] at h
      · intro h; cases h; simp_all
    | ok b =>
      cases hl : l.mapM f with
      | error e =>
        constructor
        · intro h; simp [bind, Except.bind] at h
        · intro h
          cases h with
          | cons h1 h2 => rw [(ih _).2 h2] at hl; simp at hl
      | ok bs =>
        have hb := (ih bs).1 hl
        constructor
        · intro h
          simp only [bind, Except.bind, pure, Except.pure, Except.ok.injEq] at h
          subst h; exact .cons ha hb
        · intro h
          cases h with
          | cons h1 h2 =>
            rw [ha] at h1; cases h1
            rw [(ih _).2 h2] at hl; cases hl
            rfl

theorem forall₂_mem_left {α β : Type _} {R : α → β → Prop} {l : List α} {r : List β}
    (h : List.Forall₂ R l r) {a : α} (ha : a ∈ l) : ∃ b ∈ r, R a b := by
  induction h with
  | nil => simp at ha
  | cons h1 _ ih =>
    rcases List.mem_cons.1 ha with rfl | ha
    · exact ⟨_, by simp, h1⟩
    · obtain ⟨b, hb, h⟩ := ih ha; exact ⟨b, by simp [hb], h⟩

/-- If every evaluation succeeds the comprehension does. -/
theorem mapM_ok_of_forall {α β : Type _} (f : α → Except PyErr β) (l : List α)
    (h : ∀ a ∈ l, ∃ b, f a = .ok b) : ∃ r, l.mapM f = .ok r := by
  induction l with
  | nil => exact ⟨[], rfl⟩
  | cons a l ih =>
    obtain ⟨b, hb⟩ := h a (by simp)
    obtain ⟨r, hr⟩ := ih fun x hx => h x (by simp [hx])
    exact ⟨b :: r, by rw [List.mapM_cons, hb, hr]; rfl⟩

/-- If one evaluation raises the comprehension raises. -/
theorem mapM_raises {α β : Type _} (f : α → Except PyErr β) (l : List α) {a : α} (ha : a ∈ l)
    (h : raises (f a)) : raises (l.mapM f) := by
  cases hl : l.mapM f with
  | error e => exact ⟨e, rfl⟩
  | ok r =>
    rw [mapM_ok_iff] at hl
    obtain ⟨e, he⟩ := h
    exfalso
    induction hl with
    | nil => simp at ha
    | cons h1 _ ih =>
      rcases List.mem_cons.1 ha with rfl | ha
      · rw [he] at h1; simp at h1
      · exact ih ha

/-- A successful sequence of two steps. -/
theorem bind_eq_ok {α β : Type _} {x : Except PyErr α} {f : α → Except PyErr β} {b : β}
    (h : (x >>= f) = .ok b) : ∃ a, x = .ok a ∧ f a = .ok b := by
  cases x with
  | error e => cases h
  | ok a => exact ⟨a, rfl, h⟩

theorem bind_eq_ok_iff {α β : Type _} {x : Except PyErr α} {f : α → Except PyErr β} {b : β} :
    (x >>= f) = .ok b ↔ ∃ a, x = .ok a ∧ f a = .ok b :=
  ⟨bind_eq_ok, fun ⟨a, h1, h2⟩ => by rw [h1]; exact h2⟩

@[simp] theorem ok_bind_eq {α β : Type _} (a : α) (f : α → Except PyErr β) : (Except.ok a >>= f) = f a := rfl
@[simp] theorem error_bind_eq {α β : Type _} (e : PyErr) (f : α → Except PyErr β) :
    ((Except.error e : Except PyErr α) >>= f) = .error e := rfl

end Verif.Py
