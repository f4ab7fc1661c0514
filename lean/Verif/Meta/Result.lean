import Verif.Meta.Registry
import Verif.Meta.Inputs

/-!
# Reading the results: `Lines` (`btalib/meta/lines.py:614-680`), `LinesHolder` and `SeriesFetcher`
(`btalib/meta/linesholder.py`), and the attributes of an indicator instance (`btalib/indicator.py:109-167`)

Attributes are names; names with two leading underscores are not modelled.
-/

namespace Bta.Meta

open Py

variable {V : Type}

/-! ## Lines -/

/-- An instance of a generated class of outputs or inputs: the slots and the remappings of its class, and the attributes which
were set. (lines.py:85-105, 614-640) -/
structure LinesObj (V : Type) where
  gen : LGen
  store : Dict String (Line V)

/-- The names defined in `class Lines` (lines.py:614-680): methods and properties. -/
def linesMembers : List String :=
  ["_minperiods", "_minperiod", "_update_minperiod", "size", "keys", "_values", "_items", "_get"]

/-- What an attribute can be: a line, a name (`str`), several lines (an instance of inputs, outputs or a list), or something
else (a method, a property, parameters, a number). (indicator.py:109-167) -/
inductive AVal (V : Type) where
  | line (l : Line V)
  | name (s : String)
  | lines (ls : List (Line V))
  | other
deriving DecidableEq, Repr

/-- `lines.attr` (python attribute lookup on lines.py:614-680): slots and remapped names, else what the class defines. -/
def LinesObj.getattr (o : LinesObj V) (n : String) : Except Err (AVal V) :=
  match o.gen.getattr o.store n with
  | .ok l => .ok (.line l)
  | .error .attributeError => if n ∈ linesMembers then .ok .other else .error .attributeError
  | .error e => .error e

/-- `hasattr(lines, attr)`: only an AttributeError counts as absence. (used in linesholder.py:20, 60, 72, lines.py:642-643) -/
def LinesObj.hasattr (o : LinesObj V) (n : String) : Except Err Bool :=
  match o.getattr n with
  | .ok _ => .ok true
  | .error .attributeError => .ok false
  | .error e => .error e

/-- `len(lines)` (lines.py:649-650) -/
def LinesObj.len (o : LinesObj V) : Nat := o.gen.lines.length

/-- `list(lines)` (lines.py:652-653) -/
def LinesObj.toList (o : LinesObj V) : Except Err (List (Line V)) :=
  o.gen.lines.mapM (fun n => o.gen.getattr o.store n)

/-- `lines.keys()` (lines.py:665-666) -/
def LinesObj.keys (o : LinesObj V) : List String := o.gen.lines

/-- What can be written in brackets. (lines.py:655-660) -/
inductive Key where
  | str (s : String)
  | int (i : Int)
  | slice (i j : Int)
deriving DecidableEq, Repr

/-- `lines[item]` (lines.py:655-660): for a name `__slots__.index` (ValueError if absent), else `__slots__[item]`, which is an
IndexError if out of range, and for a slice a list, which is no attribute name (TypeError). -/
def LinesObj.getitem (o : LinesObj V) : Key → Except Err (Line V)
  | .str s => match index? o.gen.lines s with
    | some i => match o.gen.lines[i]? with
      | some n => o.gen.getattr o.store n
      | none => .error .indexError
    | none => .error .valueError
  | .int i => match pyGet o.gen.lines i with
    | some n => o.gen.getattr o.store n
    | none => .error .indexError
  | .slice _ _ => .error .typeError

/-- `lines[item] = val` (lines.py:662-663) for a number; `lines.name = val` is `LGen.setattr` (639-640). -/
def LinesObj.setitem (o : LinesObj V) (i : Int) (l : Line V) : Except Err (LinesObj V) :=
  match pyGet o.gen.lines i with
  | some n => match o.gen.setattr o.store n l with
    | some st => .ok { o with store := st }
    | none => .error .valueError
  | none => .error .indexError

/-- `lines._get(key, default)` (lines.py:674-680) -/
def LinesObj.get (o : LinesObj V) (n : String) (default : AVal V) : Except Err (AVal V) :=
  match o.getattr n with
  | .error .attributeError => .ok default
  | r => r

/-! ## Indicator instances -/

/-- The attributes of the instance when the initialisers run: `outputs`, `o`, `lines`, `l`, `inputs`, `i`, `datas`, `d`, `data`, the
direct aliases by number (the lines) and by `i_<number>` (the *names*: `enumerate(self.inputs.__slots__)`), minimum periods and
parameters. (indicator.py:109-145) -/
def instDict (slots : List String) (ins : List (Line V)) : Dict String (AVal V) :=
  let a : Dict String (AVal V) := [("outputs", .other), ("o", .other), ("lines", .other), ("l", .other), ("inputs", .lines ins),
    ("i", .lines ins), ("datas", .lines ins), ("d", .lines ins), ("data", ((ins.head?).map AVal.line).getD .other)]
  let b := update a (ins.zipIdx.flatMap (fun p => ["i", "input", "d", "data"].map (fun q => (q ++ toString p.2, AVal.line p.1))))
  let c := update b (slots.zipIdx.flatMap (fun p => ["i_", "input_", "d_", "data_"].map (fun q => (q ++ toString p.2, AVal.name p.1))))
  update c [("_minperiods", .other), ("_minperiod", .other), ("params", .other), ("p", .other)]

/-- The names removed after the initialisers. (indicator.py:154-167) -/
def removedNames (n : Nat) : List String :=
  ["l", "lines", "data", "d", "datas"] ++ (List.range n).flatMap (fun k => ["d", "data"].map (· ++ toString k)) ++
    (List.range n).flatMap (fun k => ["d_", "data_"].map (· ++ toString k))

/-- The attributes the user finds. (indicator.py:109-171) -/
def instAttrs (slots : List String) (ins : List (Line V)) : Dict String (AVal V) :=
  (removedNames slots.length).foldl erase (instDict slots ins)

/-- `_BINOPS` without the names with underscores (linesops.py:36-60): methods of `LinesHolder` (linesholder.py:51-53) -/
def binopNames : List String :=
  ["eq", "le", "lt", "ge", "gt", "ne", "add", "radd", "div", "divide", "rdiv", "floordiv", "rfloordiv", "mod", "rmod", "mul",
    "multiply", "rmul", "pow", "rpow", "sub", "subtract", "rsub", "truediv", "rtruediv"]

/-- Class attributes found before `__getattr__`: those of `LinesHolder` (linesholder.py:46-106), of `Indicator` (indicator.py:187-208),
and those which class bodies define (`group`, `alias`, ... in indicators/*.py).  The functions of single classes all begin with an
underscore (`_sarize`, `_periodize`, ...). -/
def classNames : List String :=
  binopNames ++ ["_df", "_sf", "keys", "size", "df", "series", "_period", "_talib", "_talib_", "_talib_class", "inputs", "outputs",
    "params", "alias", "group", "groups", "allowinputs", "inputs_extend"]

/-- An indicator: its outputs, inputs, and the cached frame. (linesholder.py:46-49) -/
structure IndObj (V : Type) where
  outputs : LinesObj V
  inSlots : List String
  ins : List (Line V)
  /-- `_df` -/
  df : Option (List (String × List V))

/-- `ind.attr` (python attribute lookup, then `LinesHolder.__getattr__`, linesholder.py:59-69).  `lineAttrs` are the names a
`Line` has (methods, `index`, ...), reached through `outputs[0]`. -/
def IndObj.getattr (lineAttrs : List String) (x : IndObj V) (n : String) : Except Err (AVal V) :=
  -- properties (`size`, `df`, `series`) come before the instance, other class attributes after it
  if n ∈ ["size", "df", "series"] then .ok .other
  else match get? (instAttrs x.inSlots x.ins) n with
  | some v => .ok v
  | none =>
    if n ∈ classNames then .ok .other
    else match x.outputs.hasattr n with
    | .error e => .error e
    | .ok true => x.outputs.getattr n
    | .ok false =>
      match x.outputs.getitem (.int 0) with
      | .error .attributeError => .error .attributeError
      | .error e => .error e
      | .ok _ => if n ∈ lineAttrs then .ok .other else .error .attributeError

/-- `item in ind` (linesholder.py:71-72) -/
def IndObj.contains (x : IndObj V) (n : String) : Except Err Bool := x.outputs.hasattr n
/-- `ind[item]` (linesholder.py:80-81) -/
def IndObj.getitem (x : IndObj V) (k : Key) : Except Err (Line V) := x.outputs.getitem k
/-- `len(ind)` (linesholder.py:74-75) -/
def IndObj.len (x : IndObj V) : Nat := x.outputs.len
/-- `list(ind)` (linesholder.py:77-78) -/
def IndObj.toList (x : IndObj V) : Except Err (List (Line V)) := x.outputs.toList
/-- `list(ind.keys())` (linesholder.py:83-84) -/
def IndObj.keys (x : IndObj V) : List String := x.outputs.keys

/-- `pd.DataFrame(dict(self.series))` (linesholder.py:91-93): `dict` asks `SeriesFetcher` for `keys` and for the item of each
(33-37), which is the series of the line. -/
def frameOf (o : LinesObj V) : Except Err (List (String × List V)) :=
  o.keys.mapM (fun n => (o.getitem (.str n)).map (fun l => (n, l.series)))

/-- `ind.df` (linesholder.py:90-95): made once, then kept. -/
def IndObj.readDf (x : IndObj V) : Except Err (List (String × List V)) × IndObj V :=
  match x.df with
  | some d => (.ok d, x)
  | none => match frameOf x.outputs with
    | .ok d => (.ok d, { x with df := some d })
    | .error e => (.error e, x)

/-- `ind.outputs.name = line` (lines.py:639-640) -/
def IndObj.setOutput (x : IndObj V) (n : String) (l : Line V) : IndObj V :=
  match x.outputs.gen.setattr x.outputs.store n l with
  | some st => { x with outputs := { x.outputs with store := st } }
  | none => x

/-- The indicator a call of a class with the chain `c` returns, if its initialisers have set the outputs to `outs`.
(indicator.py:79-181) -/
def IndObj.ofCall (c : List Row) (ins outs : List (Line V)) : IndObj V :=
  ⟨⟨outGen c, (outGen c).lines.zip outs⟩, (inGen c).lines, ins, none⟩

end Bta.Meta
