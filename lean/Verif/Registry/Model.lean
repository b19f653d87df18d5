import Verif.Py.Basic
import Verif.Py.Dict

/-!
# Model of `flavio.classes.NamedInstanceClass`

Class objects have an optional own attribute `instances`; attribute access on a class without it
continues with the base class.  Only the bases that can carry `instances` matter, so the MRO is a
chain given by `parent`.
-/
namespace Verif.Registry
open Verif.Py

variable {C N I : Type} [DecidableEq C] [DecidableEq N]

/-- `instances` attributes of all class objects (`none`: the class itself has no such attribute).
(Used for `create`, /repo/flavio/classes.py:50-55.) -/
abbrev Attrs (C N I : Type) := C → Option (Dict N I)

/-- Python attribute lookup `cls.instances`: the nearest class in the base-class chain (as a list,
the class itself first) that has the attribute.  Returns the class that owns it.
(Used for `create`, /repo/flavio/classes.py:50-55.) -/
def owner (w : Attrs C N I) : List C → Option C
  | [] => none
  | c :: cs => if (w c).isSome then some c else owner w cs

/-- Assign the attribute of one class. (Used for `create`, /repo/flavio/classes.py:50-55.) -/
def setAttr (w : Attrs C N I) (c : C) (d : Dict N I) : Attrs C N I :=
  fun c' => if c' = c then some d else w c'

/-- `NamedInstanceClass.__init__(self, name)` for an instance `i` of a class with base chain
`chain = c :: bases`.  /repo/flavio/classes.py:50-55. -/
def create (w : Attrs C N I) (c : C) (bases : List C) (n : N) (i : I) : Attrs C N I :=
  let w := match owner w (c :: bases) with
    | some _ => w
    | none => setAttr w c []
  match owner w (c :: bases) with
  | some o => setAttr w o (((w o).getD []).set n i)
  | none => w

/-- `get_instance` / `Class[name]`.  /repo/flavio/classes.py:25-26, 57-59. -/
def getInstance (w : Attrs C N I) (c : C) (bases : List C) (n : N) : Except PyErr I :=
  match owner w (c :: bases) with
  | none => .error .attributeError
  | some o => match ((w o).getD []).get? n with
    | some i => .ok i
    | none => .error .keyError

/-- `del_instance` / `del Class[name]`.  /repo/flavio/classes.py:28-29, 61-63. -/
def delInstance (w : Attrs C N I) (c : C) (bases : List C) (n : N) : Attrs C N I × Option PyErr :=
  match owner w (c :: bases) with
  | none => (w, some .attributeError)
  | some o =>
    if ((w o).getD []).has n then (setAttr w o (((w o).getD []).erase n), none)
    else (w, some .keyError)

/-- `clear_all`: sets the attribute on the class itself.  /repo/flavio/classes.py:65-68. -/
def clearAll (w : Attrs C N I) (c : C) : Attrs C N I := setAttr w c []

/-- `find(regex)`, `search n` being "`rc.search(n)` is a match".  /repo/flavio/classes.py:70-74. -/
def find (w : Attrs C N I) (c : C) (bases : List C) (search : N → Bool) : Except PyErr (List N) :=
  match owner w (c :: bases) with
  | none => .error .attributeError
  | some o => .ok ((((w o).getD []).keys).filter search)

/-- Calls that change registries. Used for /repo/flavio/classes.py:20-69. -/
inductive Op (C N I : Type) where
  | create (c : C) (n : N) (i : I)
  | del (c : C) (n : N)
  | clear (c : C)

/-- The class an operation is called on. Used for /repo/flavio/classes.py:20-69. -/
def Op.cls : Op C N I → C
  | .create c _ _ => c
  | .del c _ => c
  | .clear c => c

/-- Effect of one call (a raising `del` changes nothing). Used for /repo/flavio/classes.py:20-69. -/
def step (bases : C → List C) (w : Attrs C N I) : Op C N I → Attrs C N I
  | .create c n i => create w c (bases c) n i
  | .del c n => (delInstance w c (bases c) n).1
  | .clear c => clearAll w c

/-- All classes are defined, no instance exists yet. Used for /repo/flavio/classes.py:20-69. -/
def init : Attrs C N I := fun _ => none

/-- State after a history of calls. Used for /repo/flavio/classes.py:20-69. -/
def run (bases : C → List C) (h : List (Op C N I)) : Attrs C N I := h.foldl (step bases) init

/-- The class hierarchy of flavio (the classes that inherit from `NamedInstanceClass`).
/repo/flavio/classes.py:32, 80, 542, 721, 769, 808. -/
inductive Cls where
  | namedInstanceClass | parameter | observable | auxiliaryQuantity | implementation | measurement
  deriving DecidableEq

/-- Base classes that can carry `instances`. (Used for `create`, /repo/flavio/classes.py:50-55.) -/
def Cls.bases : Cls → List Cls
  | .namedInstanceClass => []
  | _ => [.namedInstanceClass]

end Verif.Registry
