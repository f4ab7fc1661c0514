import Verif.Line
import Verif.Meta.Py

/-!
# Definition of inputs and outputs in class bodies: `btalib/meta/lines.py` (`_generate`) and attribute access of `Lines`
-/

namespace Bta.Meta

open Py

/-- One element of `inputs = ...`/`outputs = ...` (lines.py:41-55): a name, or a remapping `new => old` in form of a
dictionary or of a pair (which is turned into a dictionary with one entry, 46-47). -/
inductive LDef where
  | name (s : String)
  | map (l : List (String × String))
deriving DecidableEq, Repr

/-- What `_generate` leaves behind: the tuple of lines installed in the class (82), which are also the slots of the
generated class (85), and `defmappings` (new => old) from which the alias properties are made. (lines.py:87-105) -/
structure LGen where
  lines : List String
  mappings : Dict String String
deriving DecidableEq, Repr

/-- lines.py:41-58: the names (`cdefs`). -/
def defNames (defs : List LDef) : List String := defs.flatMap (fun d => match d with
  | .name s => [s]
  | .map l => l.map Prod.fst)

/-- lines.py:52: `defmappings.update(clsdef)`. -/
def defMaps (defs : List LDef) : Dict String String := defs.foldl (fun m d => match d with
  | .name _ => m
  | .map l => update m l) []

/-- lines.py:67-70: automatic mappings by position. -/
def autoMap (names : List String) (m : Dict String String) (pairs : List (String × String)) : Dict String String :=
  pairs.foldl (fun m p => if p.2 ∈ names then m else setdefault m p.1 p.2) m

/-- lines.py:85: `reversed(list(dict.fromkeys(reversed(final_defs))))`. -/
def keepLast (l : List String) : List String := (fromkeys l.reverse).reverse

/-- `_generate` (lines.py:19-105).  `bases` are the lines of the base classes, `defs` the definition in the class body
(empty if there is none), `ext` that of `.._extend`. -/
def genLines (bases : List (List String)) (defs : List LDef) (ext : List String) : LGen :=
  let names := defNames defs
  let lbdefs := bases.flatten
  let m := if names = [] then defMaps defs else autoMap names (defMaps defs) (names.zip lbdefs)
  let final := if names = [] then lbdefs ++ ext else names
  let remapped := m.map Prod.snd
  ⟨(keepLast final).filter (fun x => decide (x ∉ remapped)), m⟩

/-- Attribute access (lines.py:88-103).  An old name is a property.  Its functions refer to the local variable `name` of
`_generate`, which after the loop holds the *last* new name for all the properties.  If that name is itself an old name,
the access recurses for ever.  All other names are stored as they are (slots, or the `__dict__` of `Inputs`/`Outputs`,
which have no `__slots__` of their own). -/
def LGen.resolve (g : LGen) (attr : String) : Option String :=
  if attr ∈ g.mappings.map Prod.snd then
    match (keys g.mappings).getLast? with
    | some n => if n ∈ g.mappings.map Prod.snd then none else some n
    | none => none
  else some attr

variable {V : Type}

/-- `lines.attr = line` (lines.py:639-640 through the properties); `none` is a RecursionError. -/
def LGen.setattr (g : LGen) (st : Dict String V) (attr : String) (v : V) : Option (Dict String V) :=
  (g.resolve attr).map (fun n => set st n v)

/-- `lines.attr` (lines.py:95-101) -/
def LGen.getattr (g : LGen) (st : Dict String V) (attr : String) : Except Err V :=
  match g.resolve attr with
  | none => .error .recursionError
  | some n => match get? st n with
    | some v => .ok v
    | none => .error .attributeError

end Bta.Meta
