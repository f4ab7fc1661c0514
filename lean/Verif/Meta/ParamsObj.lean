import Verif.Meta.Params

/-!
# The parameters of an indicator instance as an object: `class Params` (`btalib/meta/params.py:18-73`)

Names with two leading underscores are not modelled.
-/

namespace Bta.Meta

open Py

/-- An instance of a generated class: the slots (`list(params)`, params.py:120) and the attributes which are set. -/
structure ParamsObj where
  slots : List String
  store : Dict String PyVal

/-- The names defined in `class Params` (params.py:51-70). -/
def paramsMembers : List String := ["keys", "_values", "_items", "_get", "_update"]

/-- What an attribute of the object can be. (params.py:42-46) -/
inductive PAttr where
  | val (v : PyVal)
  | method

/-- `p.name` (python attribute lookup on params.py:18-73): a slot of the generated class comes before the methods of
`Params`; an unset slot is an AttributeError. -/
def ParamsObj.getattr (p : ParamsObj) (n : String) : Except Err PAttr :=
  if n ∈ p.slots then
    match get? p.store n with
    | some v => .ok (.val v)
    | none => .error .attributeError
  else if n ∈ paramsMembers then .ok .method else .error .attributeError

/-- `p.name = v`: only slots can be set. (params.py:27, 31, 70) -/
def ParamsObj.setattr (p : ParamsObj) (n : String) (v : PyVal) : Except Err ParamsObj :=
  if n ∈ p.slots then .ok { p with store := set p.store n v } else .error .attributeError

/-- `name in p` (params.py:33-34) -/
def ParamsObj.contains (p : ParamsObj) (n : String) : Bool :=
  match p.getattr n with
  | .ok _ => true
  | .error _ => false

/-- `len(p)` (params.py:36-37) -/
def ParamsObj.len (p : ParamsObj) : Nat := p.slots.length

/-- `list(p)` (params.py:39-40) -/
def ParamsObj.toList (p : ParamsObj) : List String := p.slots

/-- `p[name]` (params.py:42-49) -/
def ParamsObj.getitem (p : ParamsObj) (n : String) : Except Err PAttr :=
  match p.getattr n with
  | .ok a => .ok a
  | .error _ => .error .keyError

/-- `p._get(name, default)` (params.py:60-66) -/
def ParamsObj.get (p : ParamsObj) (n : String) (default : PyVal) : PAttr :=
  match p.getattr n with
  | .ok a => a
  | .error _ => .val default

/-- `list(p.keys())` (params.py:51-52): an ordinary method, unless a parameter is called `keys`; calling the value of such a
parameter is taken to be a TypeError (it is not for a value which can be called without arguments). -/
def ParamsObj.keysCall (p : ParamsObj) : Except Err (List String) :=
  match p.getattr "keys" with
  | .ok .method => .ok p.slots
  | .ok (.val _) => .error .typeError
  | .error e => .error e

/-- `dict(p)`, `f(**p)` and `str(p)` (params.py:72-73): python calls `keys`, then asks for the item of each. -/
def ParamsObj.toDict (p : ParamsObj) : Except Err (List (String × PAttr)) := do
  let ks ← p.keysCall
  ks.mapM (fun k => (p.getitem k).map (fun a => (k, a)))

/-- `list(p._items())` (params.py:57-58) -/
def ParamsObj.items (p : ParamsObj) : Except Err (List (String × PAttr)) :=
  p.slots.mapM (fun k => (p.getattr k).map (fun a => (k, a)))

/-- `list(p._values())` (params.py:54-55) -/
def ParamsObj.values (p : ParamsObj) : Except Err (List PAttr) := p.slots.mapM p.getattr

/-- The object an indicator call has in `ind.p` and `ind.params` (params.py:125-132). -/
def ParamsObj.ofCall (cls : PCls) (kw : Dict String PyVal) : ParamsObj :=
  ⟨keys cls.params, (fromKwargs cls kw).1⟩

end Bta.Meta
