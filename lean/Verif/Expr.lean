import Verif.Line

/-!
# Programs built from line operations

`Expr V ty` is the language of calculations an indicator's `__init__` can perform with line operations: the
operators installed from `linesops._BINOPS`, `_STDOPS`, `_MULTIFUNCOPS` (linesops.py:32-167, lines.py:464-475).
Element-wise functions and window aggregations are arbitrary functions.
-/

namespace Bta

/-- dtype of a line -/
inductive Ty where
  | flt | bool

/-- element type -/
@[reducible] def Ty.El (V : Type) : Ty → Type
  | .flt => V
  | .bool => Bool

/-- Operators (period arguments are the ones which need no future data). -/
inductive Expr (V : Type) : Ty → Type where
  /-- the `k`-th input -/
  | input (k : ℕ) : Expr V .flt
  /-- arithmetic between lines (linesops.py:45-52) -/
  | arith (f : V → V → V) (a b : Expr V .flt) : Expr V .flt
  /-- arithmetic with a scalar -/
  | arithS (f : V → V → V) (a : Expr V .flt) (c : V) : Expr V .flt
  /-- comparison (linesops.py:37-42) -/
  | cmp (f : V → V → Bool) (a b : Expr V .flt) : Expr V .bool
  /-- comparison with a scalar -/
  | cmpS (f : V → V → Bool) (a : Expr V .flt) (c : V) : Expr V .bool
  /-- `&`, `|`, `^` (linesops.py:55) -/
  | logic (f : Bool → Bool → Bool) (a b : Expr V .bool) : Expr V .bool
  /-- arithmetic between a float and a boolean line -/
  | arithB (f : V → Bool → V) (a : Expr V .flt) (b : Expr V .bool) : Expr V .flt
  /-- arithmetic between a boolean line and a float scalar -/
  | arithBS (f : Bool → V → V) (a : Expr V .bool) (c : V) : Expr V .flt
  /-- `line(-s)` / `line.shift(periods=s)` -/
  | shift (s : ℕ) (a : Expr V .flt) : Expr V .flt
  /-- `line.diff(periods=s)` -/
  | diff (s : ℕ) (a : Expr V .flt) : Expr V .flt
  /-- `line.pct_change(periods=s)` -/
  | pct (s : ℕ) (a : Expr V .flt) : Expr V .flt
  /-- element-wise standard operation (`abs`, `round`, `clip` with scalar, `fillna(value)`, ...) -/
  | map (f : V → V) (a : Expr V .flt) : Expr V .flt
  /-- standard operation with a line as argument (`clip(lower=line)`, ...) -/
  | map2 (f : V → V → V) (a b : Expr V .flt) : Expr V .flt
  /-- `line.cumsum()` -/
  | cumsum (a : Expr V .flt) : Expr V .flt
  /-- `line.ffill()` -/
  | ffill (a : Expr V .flt) : Expr V .flt
  /-- `line.replace(to_replace=0.0, method='ffill')` -/
  | replaceZero (a : Expr V .flt) : Expr V .flt
  /-- `line.rolling(window=w).<agg>()`, `w ≥ 1` (here `w = w' + 1`) -/
  | rolling (w' : ℕ) (agg : List V → V) (a : Expr V .flt) : Expr V .flt
  /-- `line._ewm(span=p or com=p-1, _seed=...).mean()` with a seed, `p = p' + 1 ≥ 1` -/
  | ewm (p' : ℕ) (seed : { s : Line.Seed // s ≠ .none ∧ s ≠ .zfill }) (alpha : V) (a : Expr V .flt) : Expr V .flt
  /-- `line._ewm(span=p, _seed=...)._lfilter(alpha, beta)` -/
  | lfilter (scipy : Bool) (p' : ℕ) (seed : { s : Line.Seed // s ≠ .none ∧ s ≠ .zfill }) (alpha : V) (beta : Option V)
      (a : Expr V .flt) : Expr V .flt

variable {V : Type} [PyFloat V]

/-- Evaluation: each constructor calls the modelled operation on the evaluated operands. -/
def Expr.eval (env : ℕ → Line V) : {ty : Ty} → Expr V ty → Except Err (Line (ty.El V))
  | _, .input k => .ok (env k)
  | _, .arith f a b => do return Line.bin f (← a.eval env) (← b.eval env)
  | _, .arithS f a c => do return Line.binS f (← a.eval env) c
  | _, .cmp f a b => do return Line.cmp f (← a.eval env) (← b.eval env)
  | _, .cmpS f a c => do return Line.cmpS f (← a.eval env) c
  | _, .logic f a b => do return Line.binop f true (← a.eval env) (← b.eval env)
  | _, .arithB f a b => do return Line.binop f nan (← a.eval env) (← b.eval env)
  | _, .arithBS f a c => do return Line.binopS f nan (← a.eval env) c
  | _, .shift s a => do return Line.shift s (← a.eval env)
  | _, .diff s a => do return Line.diff s (← a.eval env)
  | _, .pct s a => do return Line.pctChange s (← a.eval env)
  | _, .map f a => do return Line.mapOp f (← a.eval env)
  | _, .map2 f a b => do return Line.stdop2 (List.zipWith f) nan (← a.eval env) (← b.eval env)
  | _, .cumsum a => do return Line.cumsum (← a.eval env)
  | _, .ffill a => do return Line.stdop ffillL nan 0 (← a.eval env)
  | _, .replaceZero a => do return Line.stdop replaceZeroL nan 0 (← a.eval env)
  | _, .rolling w' agg a => do return Line.rolling (w' + 1) agg (← a.eval env)
  | _, .ewm p' seed al a => do Line.ewmMean { pval := (p' + 1 : ℕ), seed := seed } al (← a.eval env)
  | _, .lfilter sp p' seed al be a => do
      Line.ewmLfilter sp { pval := (p' + 1 : ℕ), seed := seed } al be (← a.eval env)

end Bta
