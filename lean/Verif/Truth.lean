import Verif.Holder

/-!
# Lines and indicators where python asks for one truth value

`and`, `or`, `not`, `if`, chained comparisons, `in` and the builtins `min`, `max`, `all`, `any` ask an object for its truth.
`Line`, `Lines` and `LinesHolder` define no `__bool__`, so python takes `__len__` (lines.py:493-494, linesholder.py:74-75):
an object is true if it is not empty.  The rules of python used here: `a op b op c` is `a op b and b op c`; `a and b` is `b` if
`a` is true and `a` otherwise; `max(a, b, ...)` goes on with an element `x` if `x > m` is true for the element `m` it has, `min`
if `x < m` is; `x in l` is true if some element of `l` is the object `x` or is equal to it.
-/

namespace Bta

variable {V : Type} [PyFloat V] {α : Type}

/-- An object with comparison operators: a line or an indicator. (lines.py:464-465, linesholder.py:52-54) -/
inductive Obj (α : Type) where
  | line (l : Line α)
  | ind (h : Holder α)

/-- `len(x)`: bars of a line (lines.py:493-494), outputs of an indicator (linesholder.py:74-75, lines.py:649-650). -/
def Obj.len : Obj α → Nat
  | .line l => l.series.length
  | .ind h => h.rest.length + 1

/-- `bool(x)`: there is no `__bool__`. (lines.py:493-494, linesholder.py:74-75) -/
def Obj.truth (x : Obj α) : Bool := decide (x.len ≠ 0)

/-- as right operand (lines.py:116-124) -/
def Obj.operand : Obj α → Operand α
  | .line l => .line l
  | .ind h => .holder h

/-- `x op y` for a comparison (lines.py:108-134, linesholder.py:40-44) -/
def Obj.cmp (f : α → α → Bool) : Obj α → Obj α → Line Bool
  | .line l, y => l.op f true y.operand
  | .ind h, y => h.op f true y.operand

/-- `x and y` (python) -/
def pyAnd (x y : Obj α) : Obj α := if x.truth then y else x
/-- `x or y` (python) -/
def pyOr (x y : Obj α) : Obj α := if x.truth then x else y
/-- `not x` (python) -/
def pyNot (x : Obj α) : Bool := !x.truth
/-- `x if c else y` (python) -/
def pyIf {β : Type} (c : Obj α) (x y : β) : β := if c.truth then x else y
/-- `all([x, y, ...])` (python) -/
def pyAll (l : List (Obj α)) : Bool := l.all Obj.truth
/-- `any([x, y, ...])` (python) -/
def pyAny (l : List (Obj α)) : Bool := l.any Obj.truth

/-- `x op y op' z ...`: comparisons from the left until one is false. (python) -/
def pyChain (x : Obj α) (f : α → α → Bool) (y : Obj α) : List ((α → α → Bool) × Obj α) → Line Bool
  | [] => x.cmp f y
  | (g, z) :: rest => if (Obj.line (x.cmp f y)).truth then pyChain y g z rest else x.cmp f y

/-- the builtin `max(x, y, ...)` (python) -/
def pyMax (x : Obj V) (l : List (Obj V)) : Obj V :=
  l.foldl (fun m y => if (Obj.line (y.cmp (fun a b => lt b a) m)).truth then y else m) x
/-- the builtin `min(x, y, ...)` (python) -/
def pyMin (x : Obj V) (l : List (Obj V)) : Obj V :=
  l.foldl (fun m y => if (Obj.line (y.cmp (fun a b => lt a b) m)).truth then y else m) x

/-- `x in l`; an object is given with its identity. (python) -/
def pyIn (x : Nat × Obj V) (l : List (Nat × Obj V)) : Bool :=
  l.any fun y => decide (y.1 = x.1) || (Obj.line (y.2.cmp (fun a b => eqv a b) x.2)).truth

end Bta
