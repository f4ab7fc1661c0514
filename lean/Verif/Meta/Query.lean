import Mathlib.Data.List.Sort
import Mathlib.Data.String.Basic
import Verif.Line
import Verif.Meta.Registry

/-!
# Queries on the library, and modules in which indicators are defined

The functions exported by `btalib/indicator.py:13-51` (`get_indicators`, ...), which read what `MetaIndicator.__new__`
registered, and what a class statement does to the module it is in (`btalib/meta/aliases.py`).
-/

namespace Bta.Meta

open Py

/-! ## Queries -/

/-- A class statement as far as registration goes: the name, the module (`cls.__module__.split('.')`, indicator.py:68)
and the groups (`cls.group` after groups.py:10-18).  A class object is identified by its number in the order of creation. -/
structure ClassStmt where
  name : String
  modsplit : List String
  group : List String
deriving DecidableEq, Repr

/-- `_NAMES_IND`, `_IND_NAMES`, `_GRP_IND` (indicator.py:22-24), and the number of classes created.  The values of `_GRP_IND` are
list objects which are created once for a key and never replaced; such an object is identified by its key. -/
structure Reg where
  created : Nat
  names : Dict String Nat
  inds : Dict Nat String
  grps : Dict String (List Nat)
deriving DecidableEq, Repr

/-- The state before any class is created. (indicator.py:22-24) -/
def Reg.empty : Reg := ⟨0, [], [], []⟩

/-- indicator.py:68-70 (`__package__` is `'btalib'`) -/
def ClassStmt.toRegister (s : ClassStmt) : Bool :=
  s.modsplit.head? == some "btalib" && decide (s.modsplit.length > 2) && !isPrivate s.name

/-- `_GRP_IND[grp].append(cls)` on a `defaultdict(list)` (indicator.py:75) -/
def grpAppend (c : Nat) (d : Dict String (List Nat)) (grp : String) : Dict String (List Nat) :=
  set d grp ((get? d grp).getD [] ++ [c])

/-- `MetaIndicator.__new__`, the registration (indicator.py:68-77) -/
def Reg.create (g : Reg) (s : ClassStmt) : Reg :=
  if s.toRegister then
    ⟨g.created + 1, set g.names s.name g.created, set g.inds g.created s.name, s.group.foldl (grpAppend g.created) g.grps⟩
  else { g with created := g.created + 1 }

/-- The state after some class statements. (indicator.py:56-77) -/
def Reg.after (h : List ClassStmt) : Reg := h.foldl Reg.create Reg.empty

/-- `sorted(l)` of names: python compares strings by code points, as Lean does. -/
def sortedNames (l : List String) : List String := l.insertionSort (· ≤ ·)

/-- `get_indicators` (indicator.py:27-28) -/
def Reg.getIndicators (g : Reg) : List Nat := (sortedNames (keys g.names)).filterMap (get? g.names)

/-- `get_ind_names` (indicator.py:31-32) -/
def Reg.getIndNames (g : Reg) : List String := sortedNames (keys g.names)

/-- `get_ind_by_name` (indicator.py:35-36): the pairs are sorted by the names, which are all different, so that classes are
never compared. -/
def Reg.getIndByName (g : Reg) : Dict String Nat := g.names.insertionSort (fun p q => p.1 ≤ q.1)

/-- `get_ind_by_group` (indicator.py:39-40): a new dictionary with the list objects themselves, which are identified by
their keys. -/
def Reg.getIndByGroup (g : Reg) : Dict String String := g.grps.map (fun p => (p.1, p.1))

/-- What a list object returned by `get_ind_by_group` holds now. (indicator.py:24) -/
def Reg.deref (g : Reg) (ref : String) : Option (List Nat) := get? g.grps ref

/-- `l.append(c)` done by the caller on a list object returned by `get_ind_by_group` (indicator.py:39-40) -/
def Reg.appendTo (g : Reg) (ref : String) (c : Nat) : Reg :=
  match get? g.grps ref with
  | some l => { g with grps := set g.grps ref (l ++ [c]) }
  | none => g

/-- `_IND_NAMES[i]` (indicator.py:44) -/
def Reg.nameOf (g : Reg) (i : Nat) : Except Err String :=
  match get? g.inds i with
  | some n => .ok n
  | none => .error .keyError

/-- `get_ind_names_by_group` (indicator.py:43-44) -/
def Reg.getIndNamesByGroup (g : Reg) : Except Err (Dict String (List String)) :=
  g.grps.mapM (fun p => (p.2.mapM g.nameOf).map (fun l => (p.1, sortedNames l)))

/-- `get_groups` (indicator.py:47-48) -/
def Reg.getGroups (g : Reg) : List String := keys g.grps

/-- The class statements of the library, in the order of creation, with their groups. (indicators/__init__.py:14-90) -/
def libStmts (rows : List Row) : List ClassStmt :=
  (rows.foldl (fun (st : Dict String (List String) × List ClassStmt) r =>
    let grp := rowGroup st.1 r
    (set st.1 r.name grp, st.2 ++ [⟨r.name, ["btalib", "indicators", r.mod], grp⟩])) ([], [])).2

/-! ## The module of a class -/

/-- `__all__` of a module: missing, a list, or something else (a tuple) which has no `append`. -/
inductive AllAttr where
  | missing
  | list (l : List String)
  | tuple (l : List String)
deriving DecidableEq, Repr

/-- The attributes of a module, and `__all__`. (aliases.py:14) -/
structure Module where
  ns : Dict String Nat
  all : AllAttr
deriving DecidableEq, Repr

/-- A statement of a module: one which binds a name (`def`, `class`, assignment, import), `__all__ = [...]`,
`__all__ = (...)`, or the definition of an indicator, whose aliases are `dct.get('alias', ())` as a tuple
(aliases.py:23-25). -/
inductive MStmt where
  | bind (n : String) (v : Nat)
  | allList (l : List String)
  | allTuple (l : List String)
  | indicator (name : String) (als : List String) (cls : Nat)
deriving DecidableEq, Repr

/-- `clsmod.__all__.append(n)` (aliases.py:20, 33) -/
def Module.export (m : Module) (n : String) : Except Err Module :=
  match m.all with
  | .missing => .error .attributeError
  | .list l => .ok { m with all := .list (l ++ [n]) }
  | .tuple _ => .error .attributeError

/-- One alias (aliases.py:30-33) -/
def Module.addAlias (cls : Nat) (m : Module) (n : String) : Except Err Module :=
  Module.export { m with ns := set m.ns n cls } n

/-- `aliases._generate` for a class of the module (aliases.py:12-33), then the class statement binds the name. -/
def Module.define (m : Module) (name : String) (als : List String) (cls : Nat) : Except Err Module := do
  let m := if m.all = .missing then { m with all := .list [] } else m
  let m ← m.export name
  let m ← als.foldlM (Module.addAlias cls) m
  pure { m with ns := set m.ns name cls }

/-- Execution of one statement. (aliases.py:12-33) -/
def Module.exec (m : Module) : MStmt → Except Err Module
  | .bind n v => .ok { m with ns := set m.ns n v }
  | .allList l => .ok { m with all := .list l }
  | .allTuple l => .ok { m with all := .tuple l }
  | .indicator name als cls => m.define name als cls

/-- The module after the execution of its statements. (aliases.py:12-33) -/
def Module.load (p : List MStmt) : Except Err Module := p.foldlM Module.exec ⟨[], .missing⟩

/-- `from m import *`: the names in `__all__`, a missing one being an AttributeError; without `__all__`, the names
which do not start with an underscore. (indicators/__init__.py:14-90) -/
def Module.star (m : Module) : Except Err (List (String × Nat)) :=
  let get (n : String) : Except Err (String × Nat) := match get? m.ns n with
    | some v => .ok (n, v)
    | none => .error .attributeError
  match m.all with
  | .missing => .ok (m.ns.filter (fun p => !isPrivate p.1))
  | .list l => l.mapM get
  | .tuple l => l.mapM get

end Bta.Meta
