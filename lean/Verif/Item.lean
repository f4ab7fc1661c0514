import Verif.LineMore
import Verif.Holder

/-!
# Single bars of a line

`line[i]` is no number: it is a `Line` object whose `_series` is one (numpy) number.  Here the operations of `Line` are written for
objects whose `_series` may be a series or such a number, so that it can be seen where they stop.

What is assumed of pandas and numpy: a numpy number has no attribute `index`, `iloc`, `rename`, `copy` of the kind used here
(AttributeError; `copy` exists and is not reached), it cannot be indexed (IndexError "invalid index to scalar variable"), it cannot
be iterated and has no length (TypeError).
-/

namespace Bta
open PyFloat

variable {α β γ V : Type}

/-- What `_series` of a line is: a series, or a number if the line is `line[i]` (lines.py:447-453, "store and pray"). -/
inductive Held (α : Type) where
  | bars (xs : List α)
  | number (v : α)
deriving DecidableEq, Repr

/-- `x.index`, `x.iloc`, `x.rename`: there for a series, AttributeError for a number (pandas, numpy; assumed). -/
def Held.attr : Held α → Except Err (List α)
  | .bars xs => .ok xs
  | .number _ => .error .attributeError

/-- `x[k:]`: IndexError for a number (numpy; assumed). -/
def Held.from (k : Int) : Held α → Except Err (List α)
  | .bars xs => .ok (pyFrom xs k)
  | .number _ => .error .indexError

/-- `iter(x)`, `len(x)`: TypeError for a number (numpy; assumed). -/
def Held.seq : Held α → Except Err (List α)
  | .bars xs => .ok xs
  | .number _ => .error .typeError

/-- A `Line` object (lines.py:456-459) around a series or a number. -/
structure AnyLine (α : Type) where
  /-- `_series` -/
  held : Held α
  /-- `_minperiod` -/
  minperiod : Int
deriving DecidableEq, Repr

/-- A line with a series. -/
def Line.any (a : Line α) : AnyLine α := ⟨.bars a.series, a.minperiod⟩

namespace AnyLine

/-- `line[i]` (lines.py:495-496): `_clone(self._series.iloc[item])`, i.e. the number with the minimum period of the line. -/
def item (i : Int) (x : AnyLine α) : Except Err (AnyLine α) := do
  let xs ← x.held.attr
  match pyGet xs i with
  | some v => .ok ⟨.number v, x.minperiod⟩
  | none => .error .indexError

/-- The other operand of an operator: a python number or a line object. -/
inductive Other (β : Type) where
  | py (c : β)
  | line (y : AnyLine β)

/-- `getattr(other, '_minperiod', 1)` (lines.py:115). -/
def Other.minperiod : Other β → Int
  | .py _ => 1
  | .line y => y.minperiod

/-- `binary_op` (lines.py:107-132): the index of the own series is asked for first; of the other operand the series or the number is
taken. -/
def binop (f : α → β → γ) (fill : γ) (x : AnyLine α) (o : Other β) : Except Err (AnyLine γ) := do
  let minperiod := max x.minperiod o.minperiod
  let minidx := minperiod - 1
  let xs ← x.held.attr
  let l ← x.held.from minidx
  let r := match o with
    | .py c => l.map (f · c)
    | .line ⟨.number c, _⟩ => l.map (f · c)
    | .line ⟨.bars ys, _⟩ => List.zipWith f l (pyFrom ys minidx)
  return (Line.clone ⟨xs, x.minperiod⟩ (setFrom xs.length fill minidx r) minperiod).any

/-- `standard_op` without line arguments (lines.py:135-162); `inc` is what `parg` adds. -/
def stdop (g : List α → List β) (fill : β) (inc : Int) (x : AnyLine α) : Except Err (AnyLine β) := do
  let xs ← x.held.attr
  let l ← x.held.from (x.minperiod - 1)
  let r := Line.clone ⟨xs, x.minperiod⟩ (setFrom xs.length fill (x.minperiod - 1) (g l)) x.minperiod
  return AnyLine.mk (.bars r.series) (r.minperiod + inc)

/-- `reduction_op` (lines.py:165-176). -/
def reduce (red : List α → γ) (x : AnyLine α) : Except Err γ := do
  return red (← x.held.from (x.minperiod - 1))

/-- `list(line)` (`__iter__`, lines.py:489-490). -/
def iter (x : AnyLine α) : Except Err (List α) := x.held.seq

/-- `len(line)` (lines.py:492-493), also asked by `bool(line)`, there being no `__bool__`. -/
def len (x : AnyLine α) : Except Err Nat := do return (← x.held.seq).length

/-- `bool(line)`, `if line:`, `line and ...`: python takes the length. -/
def truth (x : AnyLine α) : Except Err Bool := do return (← x.len) != 0

/-- `line.series` (lines.py:510-512; the name is not modelled). -/
def series (x : AnyLine α) : Except Err (List α) := x.held.attr

/-- `line.mpseries` (lines.py:506-508). -/
def mpseries (x : AnyLine α) : Except Err (List α) := x.held.from (x.minperiod - 1)

/-- `line()` (lines.py:475-487 with `ago = 0`): a line of nan over the same index. -/
def blank [PyFloat V] (x : AnyLine V) : Except Err (AnyLine V) := do
  let xs ← x.held.attr
  return ⟨.bars (xs.map fun _ => nan), x.minperiod⟩

/-- `line(None)` (lines.py:479-487): the same values; `copy` of a number is a number and passes, the index is asked for behind it. -/
def copy (x : AnyLine α) : Except Err (AnyLine α) := do
  let xs ← x.held.attr
  return ⟨.bars xs, x.minperiod⟩

/-- `line(ago)` for `ago` other than 0 (lines.py:476-477): `shift`. -/
def back [PyFloat V] (ago : Int) (x : AnyLine V) : Except Err (AnyLine V) := x.stdop (shiftL (-ago)) nan (-ago)

end AnyLine

end Bta
