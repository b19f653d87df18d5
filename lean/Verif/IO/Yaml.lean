import Verif.Py.Dict
import Verif.Py.ExceptLemmas

/-!
# Model of `flavio.io.yaml`: the `!include` and `!include_merge_list` constructors

Strings and paths are lists of characters (POSIX paths).  Anchors, merge keys, explicit tags other than
the two constructors, and the laziness of PyYAML's constructors are not modelled; mapping keys are
strings.
-/
namespace Verif.IO.Yaml
open Verif.Py

/-- Helper for /repo/flavio/io/yaml.py:1-82. -/
abbrev Path := List Char

/-- A composed YAML document. (Used for `construct`, /repo/flavio/io/yaml.py:25-61.) -/
inductive Node where
  | null
  | num (i : Int)
  | str (s : List Char)
  | seq (l : List Node)
  | map (l : List (List Char × Node))
  /-- `!include file` -/
  | incl (file : Path)
  /-- `!include_merge_list [...]` -/
  | merge (l : List Node)

/-- The constructed Python value. (Used for `entryFilename`, /repo/flavio/io/yaml.py:63-72.) -/
inductive Val where
  | null
  | num (i : Int)
  | str (s : List Char)
  | list (l : List Val)
  | dict (l : List (List Char × Val))

/-- `errno` of an `OSError`. (Used for `caught`, /repo/flavio/io/yaml.py:54.) -/
inductive Errno where
  | ENOENT | EINVAL | EISDIR | EACCES | other
  deriving DecidableEq

/-- Exceptions while loading. (Used for `mergeEntry`, /repo/flavio/io/yaml.py:46-60.) -/
inductive YErr where
  | os (e : Errno)
  | valueError
  | typeError
  | recursionError
  | yamlError
  deriving DecidableEq

/-- `os.path.isabs`. (Used for `getFilename`, /repo/flavio/io/yaml.py:63-72.) -/
def isabs (p : Path) : Bool := p.head? = some '/'

/-- `os.path.dirname` (POSIX). (Used for `construct`, /repo/flavio/io/yaml.py:25-61.) -/
def dirname (p : Path) : Path :=
  let head := (p.reverse.dropWhile fun c => c != '/').reverse
  if head.all fun c => c == '/' then head else (head.reverse.dropWhile fun c => c == '/').reverse

/-- `os.path.join(a, b)` (POSIX). (Used for `getFilename`, /repo/flavio/io/yaml.py:63-72.) -/
def join (a b : Path) : Path :=
  if isabs b then b else if a.isEmpty || a.getLast? = some '/' then a ++ b else a ++ '/' :: b

/-- `_get_filename` for a string; `root = none` if the input is a string.
/repo/flavio/io/yaml.py:63-72. -/
def getFilename (root : Option Path) (file : Path) : Option Path :=
  if isabs file then some file
  else match root with
    | some r => some (join r file)
    | none => none

/-- `_get_filename` for an arbitrary entry (`TypeError` in `isabs` → `None`).
/repo/flavio/io/yaml.py:63-72. -/
def entryFilename (root : Option Path) : Val → Option Path
  | .str s => getFilename root s
  | _ => none

/-- `a += v`: lists are concatenated, strings by character, dictionaries by key; numbers and `None`
are `TypeError`s. (Used for `mergeEntry`, /repo/flavio/io/yaml.py:46-60.) -/
def extension : Val → Except YErr (List Val)
  | .list l => .ok l
  | .str s => .ok (s.map fun c => .str [c])
  | .dict l => .ok (l.map fun e => .str e.1)
  | .null => .error .typeError
  | .num _ => .error .typeError

/-- `e.errno in [errno.ENOENT, errno.EINVAL, errno.EISDIR]`.  /repo/flavio/io/yaml.py:54. -/
def caught : Errno → Bool
  | .ENOENT => true
  | .EINVAL => true
  | .EISDIR => true
  | _ => false

/-- What one entry of `!include_merge_list` adds to the list; `load p` opens, composes and constructs
the file `p`.  /repo/flavio/io/yaml.py:46-60. -/
def mergeEntry (load : Path → Except YErr Val) (root : Option Path) (v : Val) :
    Except YErr (List Val) :=
  match entryFilename root v with
  | none => .ok [v]
  | some p => match load p >>= extension with
    | .ok ws => .ok ws
    | .error (.os e) => if caught e then .ok [v] else .error (.os e)
    | .error e => .error e

/-- The file of an `!include` (`ValueError` for relative paths in string input).
/repo/flavio/io/yaml.py:34-40. -/
def includeFile (root : Option Path) (file : Path) : Except YErr Path :=
  match getFilename root file with
  | none => .error .valueError
  | some p => .ok p

/-- Construction of a document with recursion limit `n`: `fs p` opens the file `p` and composes its
document (or raises).  Included files get the directory of the file as root.
/repo/flavio/io/yaml.py:25-61. -/
def construct (fs : Path → Except YErr Node) : Nat → Option Path → Node → Except YErr Val
  | 0, _, _ => .error .recursionError
  | _ + 1, _, .null => .ok .null
  | _ + 1, _, .num i => .ok (.num i)
  | _ + 1, _, .str s => .ok (.str s)
  | n + 1, root, .seq l => l.mapM (construct fs n root) >>= fun vs => .ok (.list vs)
  | n + 1, root, .map l => (l.map Prod.snd).mapM (construct fs n root) >>= fun vs =>
      .ok (.dict (Dict.ofPairs ((l.map Prod.fst).zip vs)))
  | n + 1, root, .incl file => includeFile root file >>= fun p =>
      fs p >>= fun nd => construct fs n (some (dirname p)) nd
  | n + 1, root, .merge l => l.mapM (construct fs n root) >>= fun vs =>
      vs.mapM (mergeEntry (fun p => fs p >>= fun nd => construct fs n (some (dirname p)) nd) root)
        >>= fun ws => .ok (.list ws.flatten)

/-- `load_include(stream)`: `name` is the file name of the stream, `none` for a string.
/repo/flavio/io/yaml.py:25-31, 82-83. -/
def loadInclude (fs : Path → Except YErr Node) (limit : Nat) (name : Option Path) (doc : Node) :
    Except YErr Val :=
  construct fs limit (name.map dirname) doc

end Verif.IO.Yaml
