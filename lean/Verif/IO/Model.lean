import Verif.Constraints.Model

/-!
# Model of `flavio.io.instanceio` (parameter differences, deduplication) and `flavio.io.yaml` (includes)
-/
namespace Verif.IO
open Verif.Py Verif.Constraints

/-! ## `list_deduplicate` -/

/-- `list(OrderedDict.fromkeys(lst))`: the keys of a dictionary into which the elements are inserted
one after the other.  /repo/flavio/io/instanceio.py:89-93. -/
def listDeduplicate {A : Type} [DecidableEq A] (l : List A) : List A :=
  (l.foldl (fun (d : Dict A Unit) a => d.set a ()) []).keys

/-- `ensurelist` (`none` is `None`, `some (.inl l)` a list, `some (.inr v)` anything else).
/repo/flavio/io/instanceio.py:67-74. -/
def ensurelist {A B : Type} : Option (List A ⊕ B) → Except PyErr (List A)
  | some (.inl l) => .ok l
  | none => .ok []
  | some (.inr _) => .error .valueError

/-! ## Parameter differences -/

variable {P R Y : Type} [DecidableEq P] [DecidableEq R] [DecidableEq Y]

/-- Equality of two entries of `get_yaml_dict` (comparison of dictionaries).
(Used for `getParDiff`, /repo/flavio/io/instanceio.py:77-83.) -/
def sameEntry (a b : YEntry P Y) : Bool := decide (a.params = b.params) && decide (a.values = b.values)

/-- `get_par_diff`; `dump` as in `getYamlList`.  /repo/flavio/io/instanceio.py:77-83. -/
def getParDiff (dump : R → Y) (default par : CState P R) : List (YEntry P Y) :=
  (getYamlList dump par).filter fun c => !(getYamlList dump default).any (sameEntry c)

/-- One entry of the loop of `from_yaml_dict`.  /repo/flavio/classes.py:446-466. -/
def loadEntry (load : Nat → Y → Except PyErr R) (s : CState P R) (e : YEntry P Y × Nat) :
    Except PyErr (CState P R) :=
  load e.2 e.1.values >>= fun c => .ok (addConstraint s e.1.params c)

/-- `from_yaml_dict(data, instance=s)`.  The check that the parameters exist
(`ParameterConstraints.add_constraint`, property C68) is not repeated here.
/repo/flavio/classes.py:436-466. -/
def fromYamlOnto (load : Nat → Y → Except PyErr R) (s : CState P R) (data : List (YEntry P Y)) :
    Except PyErr (CState P R) :=
  data.zipIdx.foldlM (loadEntry load) s

/-- `coerce_par_obj`: `ρ` is the deep copy of the distribution objects of `default_parameters`.
/repo/flavio/io/instanceio.py:59-64. -/
def coerceParObj (load : Nat → Y → Except PyErr R) (ρ : R → R) (default : CState P R)
    (data : List (YEntry P Y)) : Except PyErr (CState P R) :=
  fromYamlOnto load (copyState ρ default) data

end Verif.IO
