import Verif.Constraints.Model

/-!
# Specification vocabulary for `Constraints` histories

Everything here talks about the *history of API calls* only, not about the internal data
structures.
-/
namespace Verif.Constraints

variable {P R V L : Type} [DecidableEq P] [DecidableEq R]

/-- The call mentions the parameter. (Specification.) -/
def Op.names (op : Op P R) (p : P) : Prop :=
  match op with
  | .add ps _ => p ∈ ps
  | .remove q => q = p

/-- After history `h`, the constraint on `p` is `c` with `p` at position `i`: some call
`add_constraint(ps, c)` in the history has `p` at position `i` (the last such position), and no later
call mentions `p`. (Specification.) -/
def InForce (h : List (Op P R)) (p : P) (i : Nat) (c : R) : Prop :=
  ∃ h₁ ps h₂, h = h₁ ++ Op.add ps c :: h₂ ∧ ps[i]? = some p ∧
    (∀ j, i < j → ps[j]? ≠ some p) ∧ ∀ op ∈ h₂, ¬ op.names p

/-- `p` has some constraint after `h`. (Specification.) -/
def Constrained (h : List (Op P R)) (p : P) : Prop := ∃ i c, InForce h p i c

/-- All names given to `add_constraint`, in time order. (Specification.) -/
def named : List (Op P R) → List P
  | [] => []
  | .add ps _ :: h => ps ++ named h
  | .remove _ :: h => named h

/-- Keep only the last occurrence of every element. (Specification.) -/
def lastOccs : List P → List P
  | [] => []
  | p :: l => if p ∈ l then lastOccs l else p :: lastOccs l

/-- The `add_constraint` calls of a history, in time order. (Specification.) -/
def adds : List (Op P R) → List (R × List P)
  | [] => []
  | .add ps c :: h => (c, ps) :: adds h
  | .remove _ :: h => adds h

/-- Well-behaved use of the API: every `add_constraint` call got its own distribution object and a
list without repeated names. (Specification.) -/
structure Proper (h : List (Op P R)) : Prop where
  fresh : ((adds h).map Prod.fst).Nodup
  nodup : ∀ e ∈ adds h, e.2.Nodup

/-- Positions of a parameter list that hold parameters outside `live`. (Specification.) -/
def otherPositions (ps live : List P) : List Nat :=
  (List.range ps.length).filter fun i => match ps[i]? with
    | some p => decide (p ∉ live)
    | none => false

/-- The intended argument of `logpdf` for a constraint on `ps` of which `live` are to be evaluated at
the values `val`: a number for a one-parameter constraint, otherwise the list of the values of the
live parameters with the positions of all others excluded (`None` if there are no others). (Specification.) -/
def intendedArg (val : P → V) (ps live : List P) : PdfArg V :=
  match ps with
  | [p] => .scalar (val p)
  | ps => if live = ps then .vec (live.map val) none
          else .vec (live.map val) (some (otherPositions ps live))

/-- The `i`-th component of a central value (or error): a number has only the component 0. (Specification.) -/
def component : Central V → Nat → Option V
  | .scalar v, i => if i = 0 then some v else none
  | .list vs, i => vs[i]?
  | .array vs, i => vs[i]?

/-- `x` is the `i`-th component of the random draw `a`: for a single draw (`size=None`) the number
itself or the `i`-th entry of the vector; for `size=n` the whole list of `n` numbers or the `i`-th
column of the `n`-row matrix. (Specification.) -/
inductive IsComponent : (size : Option Nat) → Arr V → Nat → RVal V → Prop where
  | scalar (v : V) : IsComponent none (.scalar v) 0 (.num v)
  | zero (v : V) : IsComponent none (.zero v) 0 (.num v)
  | entry (vs : List V) (i : Nat) (v : V) : vs[i]? = some v → IsComponent none (.vec vs) i (.num v)
  | whole (vs : List V) : IsComponent (some vs.length) (.vec vs) 0 (.arr vs)
  | column (nc : Nat) (rows : List (List V)) (i : Nat) (col : List V) :
      i < nc → col.length = rows.length →
      (∀ (k : Nat) (r : List V), rows[k]? = some r → ∃ v, r[i]? = some v ∧ col[k]? = some v) →
      IsComponent (some rows.length) (.mat nc rows) i (.arr col)

end Verif.Constraints
