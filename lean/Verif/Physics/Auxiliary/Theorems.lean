import Verif.Physics.Auxiliary.Model
/-!
# C143: the implementations of auxiliary quantities
-/
set_option linter.unusedVariables false
set_option linter.unusedSimpArgs false
namespace Verif.Auxiliary
open Verif.Py Verif.FormFactors Verif.Angular

/-- The registries after the import. (Specification.) -/
def reg : Reg := match load calls with
  | .ok r => r
  | .error _ => ⟨[], []⟩

attribute [irreducible] reg

/-- The registry holds what a call says. (Specification.) -/
def Call.held (r : Reg) : Call → Bool
  | .aux n a => r.aux.get? n = some a
  | .impl n q f => r.impl.get? n = some (q, f)

theorem held_all : calls.all (Call.held reg) = true := by decide +kernel

/-- **C143 (import)** The constructor calls of the library never raise, and no implementation is overwritten by a different one: what a call
registers is what the registry holds under that name afterwards. -/
theorem C143_import : load calls = .ok reg ∧ (∀ n a, Call.aux n a ∈ calls → reg.aux.get? n = some a) ∧
    ∀ n q f, Call.impl n q f ∈ calls → reg.impl.get? n = some (q, f) := by
  have h := List.all_eq_true.1 held_all
  refine ⟨by decide +kernel, fun n a hc => ?_, fun n q f hc => ?_⟩
  · simpa [Call.held] using h _ hc
  · simpa [Call.held] using h _ hc

theorem mem_of_get? {α β : Type} [DecidableEq α] {d : Dict α β} {k : α} {v : β} (h : d.get? k = some v) : (k, v) ∈ d := Dict.mem_of_get? h

theorem impl_all {P : String → String → Fn → Bool} (h : reg.impl.all (fun e => P e.1 e.2.1 e.2.2) = true) {i q : String} {f : Fn}
    (hi : reg.impl.get? i = some (q, f)) : P i q f = true := List.all_eq_true.1 h _ (mem_of_get? hi)

/-- **C143 (quantities)** Every registered implementation belongs to a registered quantity. -/
theorem C143_quantities (i q : String) (f : Fn) (h : reg.impl.get? i = some (q, f)) : (reg.aux.get? q).isSome := by
  refine impl_all (P := fun _ q _ => (reg.aux.get? q).isSome) ?_ h
  decide +kernel

/-- The process a form factor function computes. (Specification.) -/
def Fn.process : Fn → String
  | .bszP p _ | .bclP p _ _ | .bclIW p _ _ | .lmvd p _ | .bszV p _ | .sseV p _ | .lambdab p _ | .bszD p _ | .bclD p _ | .other _ p => p

/-- The number of coefficients. (Specification.) -/
def Fn.order : Fn → Option ℕ
  | .bszP _ n | .bclP _ n _ | .bclIW _ n _ | .lmvd _ n | .bszV _ n | .lambdab _ n | .bszD _ n | .bclD _ n => some n
  | .sseV _ _ | .other _ _ => none

/-- **C143 (names)** An implementation of a form factor is called `<process> <parametrisation>` and belongs to the quantity `<process> form factor`, of the
process it computes. -/
theorem C143_names (i q : String) (f : Fn) (h : reg.impl.get? i = some (q, f)) (hq : q.endsWith " form factor" = true) :
    q = f.process ++ " form factor" ∧ i.startsWith (f.process ++ " ") = true := by
  have := impl_all (P := fun i q f => !(q.endsWith " form factor") || (decide (q = f.process ++ " form factor") && i.startsWith (f.process ++ " ")))
    (by decide +kernel) h
  simpa [hq] using this

/-- **C143 (order)** The number in the name of an implementation is the number of coefficients of the series — with exactly one exception. -/
theorem C143_order_partial (i q : String) (f : Fn) (n : ℕ) (h : reg.impl.get? i = some (q, f)) (hn : f.order = some n) :
    (i.toList.drop (f.process.length + 4)).head? = some (Nat.digitChar n) ∨ i = "Lambdab->Lambda SSE3" := by
  have := impl_all (P := fun i q f => match f.order with
      | none => true
      | some n => decide ((i.toList.drop (f.process.length + 4)).head? = some (Nat.digitChar n)) || decide (i = "Lambdab->Lambda SSE3"))
    (by decide +kernel) h
  rw [hn] at this
  simpa using this

/-- **C143 (defaults)** Every entry of the section `implementation` of the default configuration except `K mixing unitarity` (which is not an auxiliary quantity)
names a registered implementation of that very quantity. -/
theorem C143_defaults (q i : String) (h : defaults.get? q = some i) (hq : q ≠ "K mixing unitarity") :
    ∃ f, reg.impl.get? i = some (q, f) := by
  have h' : defaults.all (fun e => decide (e.1 = "K mixing unitarity") ||
      match reg.impl.get? e.2 with | some (q', _) => decide (q' = e.1) | none => false) = true := by decide +kernel
  have := List.all_eq_true.1 h' _ (mem_of_get? h)
  simp only [hq, decide_false, Bool.false_or] at this
  cases e : reg.impl.get? i with
  | none => rw [e] at this; cases this
  | some p =>
    rw [e] at this
    exact ⟨p.2, by rw [← of_decide_eq_true this]⟩

/-- **C143 (missing defaults)** Every registered quantity has a default — except exactly the spectator scattering for `B → ρ`. -/
theorem C143_missing_defaults_partial (q : String) (h : (reg.aux.get? q).isSome = true) :
    (defaults.get? q).isNone ↔ q = "B0->rho0ll spectator scattering" ∨ q = "B+->rho+ll spectator scattering" := by
  obtain ⟨a, ha⟩ := Option.isSome_iff_exists.1 h
  have h' : reg.aux.all (fun e => decide ((defaults.get? e.1).isNone = true ↔
      e.1 = "B0->rho0ll spectator scattering" ∨ e.1 = "B+->rho+ll spectator scattering")) = true := by decide +kernel
  exact of_decide_eq_true (List.all_eq_true.1 h' _ (mem_of_get? ha))

variable {O : Type} (oth : String → String → Par → ℝ → Except PyErr O)

/-- **C143 (missing defaults, consequence)** With the default configuration these two quantities can never be computed. -/
theorem C143_missing_defaults_witness (par : Par) (q2 : ℝ) (q : String)
    (h : q = "B0->rho0ll spectator scattering" ∨ q = "B+->rho+ll spectator scattering") :
    (reg.aux.get? q).isSome = true ∧ prediction oth reg defaults q par q2 = .error .keyError := by
  have hs : (reg.aux.get? q).isSome = true := by rcases h with rfl | rfl <;> decide +kernel
  refine ⟨hs, ?_⟩
  have hn := (C143_missing_defaults_partial q hs).2 h
  unfold prediction
  rw [Option.isNone_iff_eq_none.1 hn]
  simp

/-- **C143 (selection)** Setting `config['implementation'][q]` to a registered implementation makes the prediction of `q` that implementation's, at every parameter point,
and changes the prediction of no other quantity.  Nothing checks that the implementation belongs to the quantity. -/
theorem C143_select (cfg : Dict String String) (q i q' : String) (f : Fn) (hq : (reg.aux.get? q).isSome = true) (hi : reg.impl.get? i = some (q', f)) (par : Par) (q2 : ℝ) :
    prediction oth reg (cfg.set q i) q par q2 = run oth par q2 f ∧
    ∀ r, r ≠ q → prediction oth reg (cfg.set q i) r par q2 = prediction oth reg cfg r par q2 := by
  obtain ⟨a, ha⟩ := Option.isSome_iff_exists.1 hq
  constructor
  · unfold prediction
    rw [ha, Dict.get?_set, if_pos rfl]
    simp [hi]
  · intro r hr
    unfold prediction
    rw [Dict.get?_set, if_neg (fun e : q = r => hr e.symm)]

/-- **C143 (default)** The default prediction of every quantity with a default is a registered implementation of that quantity. -/
theorem C143_default_prediction (q i : String) (h : defaults.get? q = some i) (hq : q ≠ "K mixing unitarity") (par : Par) (q2 : ℝ) :
    ∃ f, reg.impl.get? i = some (q, f) ∧ prediction oth reg defaults q par q2 = run oth par q2 f := by
  obtain ⟨f, hf⟩ := C143_defaults q i h hq
  obtain ⟨a, ha⟩ := Option.isSome_iff_exists.1 (C143_quantities i q f hf)
  refine ⟨f, hf, ?_⟩
  unfold prediction
  rw [ha, h]
  simp [hf]

/-! ## `Λb → Λ` -/

/-- **C143 (Λb → Λ)** The default `Λb → Λ` form factors are the implementation `SSE3`, described as three-parameter expansion; it is the two-parameter one, for all parameters. -/
theorem C143_sse3_witness (par : Par) (q2 : ℝ) :
    prediction oth reg defaults "Lambdab->Lambda form factor" par q2 =
      prediction oth reg (defaults.set "Lambdab->Lambda form factor" "Lambdab->Lambda SSE2") "Lambdab->Lambda form factor" par q2 ∧
    prediction oth reg defaults "Lambdab->Lambda form factor" par q2 = (lambdabFF "Lambdab->Lambda" q2 par 2).map fun r => .L r.1 := by
  have h2 : reg.impl.get? "Lambdab->Lambda SSE2" = some ("Lambdab->Lambda form factor", .lambdab "Lambdab->Lambda" 2) := by decide +kernel
  have h3 : reg.impl.get? "Lambdab->Lambda SSE3" = some ("Lambdab->Lambda form factor", .lambdab "Lambdab->Lambda" 2) := by decide +kernel
  have ha : (reg.aux.get? "Lambdab->Lambda form factor").isSome = true := by decide +kernel
  have hd : defaults.get? "Lambdab->Lambda form factor" = some "Lambdab->Lambda SSE3" := by decide +kernel
  have e : prediction oth reg defaults "Lambdab->Lambda form factor" par q2 = (lambdabFF "Lambdab->Lambda" q2 par 2).map fun r => .L r.1 := by
    obtain ⟨f, hf, h⟩ := C143_default_prediction oth _ _ hd (by decide) par q2
    rw [h3] at hf
    injection hf with hf
    injection hf with _ hf
    rw [h, ← hf]; rfl
  refine ⟨?_, e⟩
  rw [e, (C143_select oth defaults _ _ _ _ ha h2 par q2).1]
  rfl

/-! ## Implementations that cannot be used -/

/-- The registered implementations that can never be evaluated. (Specification.) -/
def never : List String := ["B->K BCL4-LMVD", "B->D BCL4-LMVD", "B->rho SSE", "B->omega SSE", "B->D* SSE"]

/-- **C143 (unusable implementations)** Five registered implementations raise `KeyError` for all parameters and all `q²`: the module functions do not know these transitions. -/
theorem C143_never_witness (i : String) (h : i ∈ never) : ∃ q f, reg.impl.get? i = some (q, f) ∧ ∀ par q2, run oth par q2 f = .error .keyError := by
  simp only [never, List.mem_cons, List.not_mem_nil, or_false] at h
  rcases h with rfl | rfl | rfl | rfl | rfl
  · exact ⟨"B->K form factor", .lmvd "B->K" 4, by decide +kernel, fun par q2 => rfl⟩
  · exact ⟨"B->D form factor", .lmvd "B->D" 4, by decide +kernel, fun par q2 => rfl⟩
  · exact ⟨"B->rho form factor", .sseV "B->rho" 2, by decide +kernel, fun par q2 => rfl⟩
  · exact ⟨"B->omega form factor", .sseV "B->omega" 2, by decide +kernel, fun par q2 => rfl⟩
  · exact ⟨"B->D* form factor", .sseV "B->D*" 2, by decide +kernel, fun par q2 => rfl⟩

end Verif.Auxiliary
