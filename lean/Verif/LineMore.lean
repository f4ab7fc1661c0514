import Verif.Holder

/-!
# More of `btalib/meta/lines.py`: reductions, expanding and public `ewm` windows, how periods are written, slices, frames
-/

set_option linter.unusedSectionVars false

namespace Bta

variable {α β γ V : Type}

namespace Line

/-! ## Delivered bars and reductions -/

/-- `line.mpseries` (lines.py:506-508) -/
def mpseries (a : Line α) : List α := pyFrom a.series (a.minperiod - 1)

/-- `line.<red>()` (`reduction_op` without series arguments, lines.py:165-178): `red` is the pandas reduction (linesops.py:111-150).
-/
def reduce (red : List α → γ) (a : Line α) : γ := red (pyFrom a.series (a.minperiod - 1))

/-- `line.<red>(other)` for `corr`, `cov`, `dot`, `equals` (`reduction_op` with `sargs`, lines.py:165-178, linesops.py:114-118, and
`_minperiodize`, lines.py:546-575) -/
def reduce2 (red : List α → List β → γ) (a : Line α) (b : Line β) : γ :=
  let minidx := max a.minperiod b.minperiod - 1
  red (pyFrom a.series minidx) (pyFrom b.series minidx)

/-! ## How the period is written -/

/-- A period left out, written by position, or written as keyword. (lines.py:138-160, 248) -/
inductive PArg where
  | default
  | pos (k : Nat)
  | kw (k : Nat)
deriving DecidableEq, Repr

/-- The value for pandas, whose default is 1 for `shift`, `diff`, `pct_change`. (lines.py:152-153) -/
def PArg.val : PArg → Nat
  | .default => 1
  | .pos k => k
  | .kw k => k

/-- `kwargs.get(parg)` (lines.py:158, 248) -/
def PArg.get : PArg → Option Nat
  | .kw k => some k
  | _ => none

variable [PyFloat V]

/-- `standard_op` with `parg` (lines.py:137-160): the operation is executed, then `line._minperiod += kwargs.get(parg)`, which
is a TypeError for `None`. `g` is the pandas operation with the period. -/
def periodOp (g : Nat → List V → List V) (p : PArg) (a : Line V) : Except Err (Line V) :=
  match p.get with
  | some k => .ok (stdop (g p.val) nan k a)
  | none => .error .typeError

/-- `line.shift(...)` (linesops.py:67) -/
def shiftCall (p : PArg) (a : Line V) : Except Err (Line V) := periodOp (fun k => shiftL (k : Int)) p a
/-- `line.diff(...)` (linesops.py:66) -/
def diffCall (p : PArg) (a : Line V) : Except Err (Line V) := periodOp diffL p a
/-- `line.pct_change(...)` (linesops.py:68) -/
def pctChangeCall (p : PArg) (a : Line V) : Except Err (Line V) := periodOp pctChangeL p a

/-- `line.rolling(...).<agg>()` on a fresh object: `_pval` is only set from the keyword (lines.py:247-248); without a window
pandas raises a TypeError. (lines.py:210-308, 359-383) -/
def rollingCall (agg : List α → V) (p : PArg) (a : Line α) : Except Err (Line V) :=
  match p with
  | .default => .error .typeError
  | p => .ok (WinObj.use p.val agg ⟨a, a.minperiod, p.get, false⟩).1

/-- `Series.expanding(min_periods=k).<agg>()`: the aggregation of the observations (finite values) so far, nan as long as there
are less than `k` of them, and at least one. (pandas; called in lines.py:308) -/
def _root_.Bta.expandL (k : Nat) (agg : List V → V) (xs : List V) : List V :=
  (List.range xs.length).map fun i =>
    let obs := (xs.take (i + 1)).filter isFin
    if obs.length < max k 1 then nan else agg obs

/-- `line.expanding(...).<agg>()` on a fresh object (lines.py:210-308, 359-383; linesops.py:162) -/
def expanding (agg : List V → V) (p : PArg) (a : Line V) : Line V :=
  let minidx := a.minperiod - 1
  let mp := match p.get with
    | none => a.minperiod
    | some k => max (a.minperiod + k - 1) 1
  clone a (setFrom a.series.length nan minidx (expandL p.val agg (pyFrom a.series minidx))) mp

/-- Arguments of the public `ewm`: by position (pandas: `com`), `span`, `com`, `alpha` or `halflife`, the latter two with or without
`span` for the minimum period. (lines.py:224-246) -/
inductive EwmArg where
  | pos
  | span (p : Nat)
  | com (c : Nat)
  | alpha (span : Option Nat)
  | halflife (span : Option Nat)
deriving DecidableEq, Repr

/-- `_pval` (lines.py:224-246): 0 for `alpha` without span, a KeyError for `halflife` without span.  By position `_pval` is never
set, and asking for it in `__getattr__` (360) calls `__getattr__` again: a RecursionError. -/
def EwmArg.pval : EwmArg → Except Err Nat
  | .pos => .error .recursionError
  | .span p => .ok p
  | .com c => .ok (c + 1)
  | .alpha s => .ok (s.getD 0)
  | .halflife (some s) => .ok s
  | .halflife none => .error .keyError

/-- `line.ewm(...).<op>()` on a fresh object (lines.py:210-308, 359-383); `op` is the pandas operation with the arguments. -/
def ewmPublic (op : List V → List V) (e : EwmArg) (a : Line V) : Except Err (Line V) :=
  match e.pval with
  | .error err => .error err
  | .ok p =>
    let minidx := a.minperiod - 1
    let mp := max (a.minperiod + p - 1) 1
    .ok (clone a (setFrom a.series.length nan minidx (op (pyFrom a.series minidx))) mp)

/-! ## Items and slices -/

/-- `line[i:j]`, `line.iloc[i:j]` (lines.py:495-496, 385-386): the bars, with the minimum period of the line. -/
def slice (i j : Option Int) (a : Line α) : Line α :=
  ⟨pySlice a.series (i.getD 0) (j.getD a.series.length), a.minperiod⟩

/-- `line[i]` (lines.py:495-496): a line around the value; IndexError outside. -/
def item (i : Int) (a : Line α) : Except Err α :=
  match pyGet a.series i with
  | some v => .ok v
  | none => .error .indexError

/-- What is written in brackets behind `loc` or `iloc`: a number, a label which is no number (a date, a string), a slice of numbers
or a slice with labels. -/
inductive Sel (L : Type) where
  | int (i : Int)
  | label (l : L)
  | ints (i j : Option Int)
  | labels (l l' : L)

/-- `line.iloc[x]` and `line.loc[x]` (`multifunc_op` for both names, linesops.py:163-165; `_MultiFunc_Op.__getitem__`,
lines.py:385-386): both are `iloc` of the series, for which a label is a TypeError.  A value is delivered for a number, bars with
the minimum period of the line for a slice. -/
def accessor {L : Type} (a : Line α) : Sel L → Except Err (α ⊕ Line α)
  | .int i => (a.item i).map .inl
  | .ints i j => .ok (.inr (a.slice i j))
  | .label _ => .error .typeError
  | .labels _ _ => .error .typeError

/-! ## Frames -/

/-- A result read as series or frame (linesholder.py:33-37, 91-93; with `set_return_dataframe`, indicator.py:176-179, it is what a call
returns) and taken as input again: `Line(pd.Series)` (lines.py:437-439) and `_line_from_dataframe` (402-419) start with minimum
period 1. -/
def viaFrame (a : Line α) : Line α := ofSeries a.series

end Line

end Bta
