import Verif.Meta.Table
import Verif.Meta.LineDefs

/-!
# Creation of the indicator classes: names, aliases, groups, and the names used in `__init__`

`MetaIndicator.__new__` (`btalib/indicator.py:51-76`), `btalib/meta/aliases.py`, `btalib/meta/groups.py` and the import of
the modules by `btalib/indicators/__init__.py`.
-/

namespace Bta.Meta

open Py

/-! ## Names of the package -/

/-- What a name of the package stands for: a submodule (set by the import system when the submodule is first imported) or
a class. (indicators/__init__.py:14-90) -/
inductive PkgVal where
  | mod (m : String)
  | cls (c : String)
deriving DecidableEq, Repr

/-- The names bound by one class statement, in order: aliases.py:30-31 (`setattr(clsmod, alias, cls)`), then the class
statement itself. -/
def rowBinds (r : Row) : List (String × String) := r.alias.map (fun a => (a, r.name)) ++ [(r.name, r.name)]

/-- The namespace of a module (only the classes and aliases, the only names which are exported). (aliases.py:30-31) -/
def moduleNs (rows : List Row) : Dict String String := update [] (rows.flatMap rowBinds)

/-- `__all__` of a module (aliases.py:16-21, 32-33): the class and its aliases. -/
def moduleAll (rows : List Row) : List String := rows.flatMap (fun r => r.name :: r.alias)

/-- One name of a star import. (indicators/__init__.py:14-90) -/
def copyName (ns : Dict String String) (p : Dict String PkgVal) (n : String) : Dict String PkgVal :=
  match get? ns n with
  | some c => set p n (.cls c)
  | none => p

/-- `from .m import *` (indicators/__init__.py:14-90): the submodule becomes an attribute of the package, then the names
in `__all__` are copied. -/
def importModule (pkg : Dict String PkgVal) (m : String × List Row) : Dict String PkgVal :=
  (moduleAll m.2).foldl (copyName (moduleNs m.2)) (set pkg m.1 (.mod m.1))

/-- The package after all imports. (indicators/__init__.py:14-90) -/
def package (ms : List (String × List Row)) : Dict String PkgVal := ms.foldl importModule []

/-- `library`, by modules. (indicators/__init__.py:14-90) -/
def libraryModules : List (String × List Row) :=
  (fromkeys (library.map (·.mod))).map (fun m => (m, library.filter (fun r => r.mod = m)))

/-! ## Registration -/

/-- groups.py:10-18: the own definition, else the attribute of the base class (which is always a tuple by then); the
attribute of a class with neither is `()`.  `seen` are the groups of the classes created before. -/
def rowGroup (seen : Dict String (List String)) (r : Row) : List String :=
  match r.group with
  | some (g :: gs) => g :: gs
  | _ => (get? seen r.base).getD []

/-- indicator.py:22-24: `_NAMES_IND` (names), `_GRP_IND`; and the attribute `group` of all classes. -/
structure Registry where
  names : List String
  groups : Dict String (List String)
  attr : Dict String (List String)
deriving DecidableEq, Repr

/-- `name.startswith('_')` (indicator.py:70) -/
def isPrivate (n : String) : Bool := n.toList.head? == some '_'

/-- indicator.py:68-75 for a class in a submodule of the package. -/
def register (g : Registry) (r : Row) : Registry :=
  let grp := rowGroup g.attr r
  let attr := set g.attr r.name grp
  if isPrivate r.name then { g with attr := attr }
  else ⟨g.names ++ [r.name], grp.foldl (fun d k => set d k ((get? d k).getD [] ++ [r.name])) g.groups, attr⟩

/-- All classes. (indicator.py:56-77) -/
def registry (rows : List Row) : Registry := rows.foldl register ⟨[], [], []⟩

/-! ## Names used in `__init__` -/

/-- indicator.py:91-95: the class and its first bases up to `Indicator` (`k` is only fuel: the number of classes). -/
def chainOf (lib : List Row) (n : String) : Nat → List Row
  | 0 => []
  | k + 1 => match lib.find? (fun r => r.name = n) with
    | some r => r :: chainOf lib r.base k
    | none => []

/-- The chain of a class of the library. (indicator.py:91-95) -/
def libChain (n : String) : List Row := chainOf (indicatorRow :: library) n (library.length + 1)

/-- Inputs of a class, along its chain (most derived first), `lines._generate` for `inputs`. (inputs.py:31-36) -/
def inGen : List Row → LGen
  | [] => ⟨[], []⟩
  | r :: l => genLines [(inGen l).lines] ((r.inputs.getD []).map .name) r.iext

/-- Outputs of a class. (outputs.py:24-27) -/
def outGen : List Row → LGen
  | [] => ⟨[], []⟩
  | r :: l => genLines [(outGen l).lines] ((r.outputs.getD []).map .name) []

variable {V : Type}

/-- `self.o.name`, or `self.o[0]` (lines.py:655-660), as a name. -/
def slotName (g : LGen) (n : String) : String := if n = "[0]" then g.lines.headD n else n

/-- One access, given the bound inputs, whether the branch is taken and the value which is assigned (both arbitrary). (the statements of the `__init__` methods in indicators/*.py) -/
def runAcc (gi go : LGen) (ins : Dict String V) (taken : Bool) (v : V) (outs : Dict String V) :
    Acc → Except Err (Dict String V)
  | .iread n => (gi.getattr ins n).map (fun _ => outs)
  | .ifiread n => if taken then (gi.getattr ins n).map (fun _ => outs) else .ok outs
  | .set n => match go.setattr outs (slotName go n) v with
    | some o => .ok o
    | none => .error .valueError
  | .ifset n => if taken then (match go.setattr outs (slotName go n) v with
      | some o => .ok o
      | none => .error .valueError) else .ok outs
  | .get n => (go.getattr outs (slotName go n)).map (fun _ => outs)

/-- The accesses of all the initialisers, root first (indicator.py:151-152); `env` delivers the branch and the value for
each access (what remains). -/
def runAccs (gi go : LGen) (ins : Dict String V) (env : Nat → Bool × V) (outs : Dict String V) :
    List Acc → Except Err (Dict String V)
  | [] => .ok outs
  | a :: l => (runAcc gi go ins (env l.length).1 (env l.length).2 outs a).bind (fun o => runAccs gi go ins env o l)

/-- An indicator call as far as names are concerned: all initialisers, then `_update_minperiod` (lines.py:625-627), which
reads every output. -/
def runNames (c : List Row) (ins : Dict String V) (env : Nat → Bool × V) : Except Err (List V) :=
  (runAccs (inGen c) (outGen c) ins env [] (c.reverse.flatMap (·.acc))).bind (fun outs =>
    (outGen c).lines.mapM (fun n => (outGen c).getattr outs n))

end Bta.Meta
