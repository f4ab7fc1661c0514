import Verif.Holder

/-!
# How operators are written

`x + y`, `c + x`, `x.add(y)`, `x.radd(c)`, `x += y`: which method python looks for (language reference, 3.3.1 and 3.3.8), whether
`Line` (lines.py:464-475) and `LinesHolder` (linesholder.py:40-54) have it, and whether the pandas series they hand it to has it.
-/

namespace Bta.Signs

variable {V W : Type}

/-- `_BINOPS`, word for word (linesops.py:32-57). -/
def binops : List String :=
  ["__eq__", "eq", "__le__", "le", "__lt__", "lt", "__ge__", "ge", "__gt__", "gt", "__ne__", "ne",
   "__add__", "__radd__", "add", "radd",
   "__div__", "__rdiv__", "div", "divide", "rdiv",
   "__floordiv__", "__rfloordiv__", "floordiv", "rfloordiv",
   "__mod__", "__rmod__", "mod", "rmod",
   "__mul__", "__rmul__", "mul", "multiply", "rmul",
   "__pow__", "__rpow__", "pow", "rpow",
   "__sub__", "__rsub__", "sub", "subtract", "rsub",
   "__truediv__", "__rtruediv__", "truediv", "rtruediv",
   "__and__", "__or__", "__xor__"]

/-- The other methods with two underscores which `Line` has and python's operators and functions look for: `__abs__` (from `_STDOPS`,
linesops.py:72) and those of the class body (lines.py:461-499). -/
def lineSpecial : List String := ["__abs__", "__hash__", "__call__", "__iter__", "__len__", "__getitem__", "__setitem__"]

/-- Those of `LinesHolder` (linesholder.py:56-81).  `__hash__` is missing: python removes it from a class which defines `__eq__`
and no `__hash__`. -/
def holderSpecial : List String := ["__call__", "__getattr__", "__contains__", "__len__", "__iter__", "__getitem__"]

/-- A line or an indicator. -/
inductive Src (V : Type) where
  | line (l : Line V)
  | ind (h : Holder V)

/-- What can stand on one side of an operator. -/
inductive Obj (V : Type) where
  | num (c : V)
  | sub (x : Src V)

/-- As the right operand of the model of `binary_op`. (lines.py:115-124) -/
def Obj.operand : Obj V → Operand V
  | .num c => .scalar c
  | .sub (.line l) => .line l
  | .sub (.ind h) => .holder h

/-- Methods python finds in the class (operators and functions like `abs` look nowhere else). -/
def Src.special : Src V → List String
  | .line _ => binops ++ lineSpecial
  | .ind _ => binops ++ holderSpecial

/-- The line which executes the operation: the line itself, the first output of an indicator (linesholder.py:41-42). -/
def Src.exec : Src V → Line V
  | .line l => l
  | .ind h => h.first

/-- The methods of a pandas series which take another operand: what they compute bar by bar, and what the warm-up holds for the
type of their result (nan for floats, True for truth values).  A name which is missing is an AttributeError. -/
abbrev Pandas (V W : Type) := String → Option ((V → V → W) × W)

/-- `x.name(y)` for a name of `_BINOPS` (`binary_op`, lines.py:107-132; linesholder.py:40-44). -/
def Src.method (P : Pandas V W) (x : Src V) (name : String) (y : Obj V) : Except Err (Line W) :=
  if name ∈ binops then
    match P name with
    | some (f, fill) => .ok (x.exec.op f fill y.operand)
    | none => .error .attributeError
  else .error .attributeError

/-- The signs of python with two operands, without comparisons. -/
inductive Sign where
  | add | sub | mul | truediv | floordiv | mod | pow | matmul | divmod | and | or | xor
deriving DecidableEq, Repr

/-- The name of the method without underscores. (python language reference 3.3.8; linesops.py:45-56) -/
def Sign.word : Sign → String
  | .add => "add" | .sub => "sub" | .mul => "mul" | .truediv => "truediv" | .floordiv => "floordiv" | .mod => "mod" | .pow => "pow"
  | .matmul => "matmul" | .divmod => "divmod" | .and => "and" | .or => "or" | .xor => "xor"

/-- `__add__` (linesops.py:45-56) -/
def Sign.left (s : Sign) : String := "__" ++ s.word ++ "__"
/-- `__radd__` (linesops.py:45-56) -/
def Sign.right (s : Sign) : String := "__r" ++ s.word ++ "__"
/-- `__iadd__` (python language reference 3.3.8) -/
def Sign.inplace (s : Sign) : String := "__i" ++ s.word ++ "__"

/-- `x sign y` with a line or indicator on the left (language reference 3.3.8): the method of `x`, else the reflected one of `y`,
else TypeError. The methods of `Line` and `LinesHolder` (lines.py:107-132, linesholder.py:40-44) never answer NotImplemented, and the
reflected one of a subclass comes first only if the subclass has another one, which no indicator has. -/
def binary (P : Pandas V W) (s : Sign) (x : Src V) (y : Obj V) : Except Err (Line W) :=
  if s.left ∈ x.special then x.method P s.left y
  else match y with
    | .sub y' => if s.right ∈ y'.special then y'.method P s.right (.sub x) else .error .typeError
    | .num _ => .error .typeError

/-- `c sign x` with a python number on the left: its own method answers NotImplemented, then the reflected one of `x` is taken.
(language reference 3.3.8; linesops.py:45-56) -/
def reflected (P : Pandas V W) (s : Sign) (c : V) (x : Src V) : Except Err (Line W) :=
  if s.right ∈ x.special then x.method P s.right (.num c) else .error .typeError

/-- `x sign= y`: the own method if there is one (`Line` and `LinesHolder` have none), else `x = x sign y`.
(language reference 3.3.8; linesops.py:32-57) -/
def assign (P : Pandas V W) (s : Sign) (x : Src V) (y : Obj V) : Except Err (Line W) :=
  if s.inplace ∈ x.special then x.method P s.inplace y else binary P s x y

/-- Comparisons. -/
inductive Cmp where
  | lt | le | gt | ge | eq | ne
deriving DecidableEq, Repr

/-- `__lt__` (linesops.py:37-42) -/
def Cmp.left : Cmp → String
  | .lt => "__lt__" | .le => "__le__" | .gt => "__gt__" | .ge => "__ge__" | .eq => "__eq__" | .ne => "__ne__"

/-- The sign seen from the other side. (language reference 3.3.1) -/
def Cmp.mirror : Cmp → Cmp
  | .lt => .gt | .le => .ge | .gt => .lt | .ge => .le | .eq => .eq | .ne => .ne

/-- `x sign y` for comparisons with a line or indicator on the left (language reference 3.3.1; linesops.py:37-42): if the class of
`y` is a proper subclass of that of `x` (`derived`), python asks `y` first, with the mirrored sign. -/
def compare (P : Pandas V W) (derived : Bool) (s : Cmp) (x : Src V) (y : Obj V) : Except Err (Line W) :=
  match derived, y with
  | true, .sub y' => y'.method P s.mirror.left (.sub x)
  | _, _ => x.method P s.left y

/-- `c sign x` for comparisons with a python number on the left: the mirrored method of `x`.
(language reference 3.3.1; linesops.py:37-42) -/
def compareNum (P : Pandas V W) (s : Cmp) (c : V) (x : Src V) : Except Err (Line W) := x.method P s.mirror.left (.num c)

/-- Signs and functions with one operand which are methods with underscores. -/
inductive Unary where
  | neg | pos | invert | abs | round | hash
deriving DecidableEq, Repr

/-- The method looked for. (language reference 3.3.8, 3.3.1; linesops.py:72) -/
def Unary.left : Unary → String
  | .neg => "__neg__" | .pos => "__pos__" | .invert => "__invert__" | .abs => "__abs__" | .round => "__round__" | .hash => "__hash__"

/-- `-x`, `+x`, `~x`, `abs(x)`, `round(x)`, `hash(x)`: is there a method?  If not, a TypeError. (language reference 3.3.8;
lines.py:461-475, linesholder.py:51-81) -/
def unary (u : Unary) (x : Src V) : Except Err Unit := if u.left ∈ x.special then .ok () else .error .typeError

end Bta.Signs
