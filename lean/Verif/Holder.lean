import Verif.Line

/-!
# Indicators as operands: `btalib/meta/linesholder.py`, and window objects (`lines.py:207-397`)
-/

namespace Bta

variable {V : Type} [PyFloat V]

/-- An indicator instance seen as an operand: its outputs (`outputs[0]` first) and the instance attribute
`_minperiod` (indicator.py:169-171). -/
structure Holder (α : Type) where
  /-- `outputs[0]` -/
  first : Line α
  /-- the other outputs -/
  rest : List (Line α)
  /-- `_minperiod` of the instance -/
  minperiod : Int
deriving DecidableEq, Repr

/-- End of `MetaIndicator.__call__` (indicator.py:169-171 with lines.py:625-627): the minimum period of the instance is
the maximum of those of the outputs. -/
def Holder.ofOutputs {α : Type} (first : Line α) (rest : List (Line α)) : Holder α :=
  ⟨first, rest, rest.foldl (fun m l => max m l.minperiod) first.minperiod⟩

/-- What a user can write to the right of an operator. (lines.py:116-124) -/
inductive Operand (α : Type) where
  | scalar (c : α)
  | line (l : Line α)
  | holder (h : Holder α)

/-- `Line` operator operand (`binary_op`, lines.py:108-134).  For an indicator `getattr(other, '_minperiod', 1)` is the
minimum period of the instance whereas `getattr(other, '_series')` goes through `LinesHolder.__getattr__`
(linesholder.py:59-69) to `outputs[0]`. -/
def Line.op {α γ : Type} (f : α → α → γ) (fill : γ) (a : Line α) : Operand α → Line γ
  | .scalar c => Line.binopS f fill a c
  | .line l => Line.binop f fill a l
  | .holder h => Line.binop f fill a ⟨h.first.series, h.minperiod⟩

/-- `indicator operator operand` (linesholder.py:40-44): the operation is executed by `outputs[0]`. -/
def Holder.op {α γ : Type} (f : α → α → γ) (fill : γ) (h : Holder α) (o : Operand α) : Line γ := h.first.op f fill o

/-- `LinesHolder._period(p)` (linesholder.py:104-106): adds 1 to the minimum period of the instance, whatever `p` is,
and does not touch the outputs. -/
def Holder.period {α : Type} (h : Holder α) (_p : Int) : Holder α := { h with minperiod := h.minperiod + 1 }

/-- A rolling/expanding/ewm window object as the user sees it (`_MultiFunc_Op`, lines.py:207-397): the line, the
mutable `_minperiod`, `_pval` (`None` if the period parameter was not given) and `_is_seeded`. -/
structure WinObj (α : Type) where
  line : Line α
  minperiod : Int
  pval : Option Nat
  seeded : Bool

/-- `line.rolling(window=w)` (lines.py:210-215, 247-248, 303-306) -/
def WinObj.rolling {α : Type} (w : Nat) (a : Line α) : WinObj α := ⟨a, a.minperiod, some w, false⟩

/-- One use of the object: attribute access (lines.py:359-367, which changes the object) and call of the operation
(369-381).  Returns the result and the changed object. -/
def WinObj.use {α : Type} (w : Nat) (agg : List α → V) (o : WinObj α) : Line V × WinObj α :=
  let mp := match o.pval with
    | none => o.minperiod
    | some p => if o.seeded then o.minperiod else max (o.minperiod + p - 1) 1
  let minidx := o.line.minperiod - 1
  (Line.clone o.line (setFrom o.line.series.length nan minidx (rollL w agg (pyFrom o.line.series minidx))) mp,
    { o with minperiod := mp })

/-- the results of `k` uses, one after the other, of the same object (lines.py:359-383) -/
def WinObj.uses {α : Type} (w : Nat) (agg : List α → V) : Nat → WinObj α → List (Line V)
  | 0, _ => []
  | k + 1, o => (o.use w agg).1 :: uses w agg k (o.use w agg).2

end Bta
