import Verif.Line

/-!
# Formulas a user writes with lines

The vocabulary of C87: formulas made of arithmetic, clipping, shifts, differences and rolling windows, and the bars of the
inputs which are read for one bar of the result.
-/

set_option linter.unusedSectionVars false

namespace Bta

/-- the arithmetic operators (linesops.py:45-52) -/
inductive Arith where
  | add | sub | mul | div
deriving DecidableEq

/-- the window functions `rolling(window=w).<agg>()` -/
inductive WinFn where
  | sum | mean | max | min
deriving DecidableEq

/-- a formula over the inputs 0, 1, ...; constants are finite numbers -/
inductive Formula (K : Type) where
  | input (k : ℕ)
  | op (o : Arith) (a b : Formula K)
  /-- `a o c` -/
  | opS (o : Arith) (a : Formula K) (c : K)
  /-- `c o a` -/
  | rop (o : Arith) (c : K) (a : Formula K)
  | abs (a : Formula K)
  /-- `a.clip(lower=c)` -/
  | clipLo (a : Formula K) (c : K)
  /-- `a.clip(upper=c)` -/
  | clipHi (a : Formula K) (c : K)
  /-- `a.clip(lower=b)` -/
  | clipLoL (a b : Formula K)
  /-- `a.clip(upper=b)` -/
  | clipHiL (a b : Formula K)
  /-- `a.shift(periods=s)` -/
  | shift (s : ℕ) (a : Formula K)
  /-- `a.diff(periods=s)` -/
  | diff (s : ℕ) (a : Formula K)
  /-- `a.rolling(window=w+1).<fn>()` -/
  | rolling (w : ℕ) (fn : WinFn) (a : Formula K)

variable {K : Type}

/-- For the bar `i` of the result the bar `j` of input `k` is read. -/
def Formula.Reads : Formula K → ℕ → ℕ → ℕ → Prop
  | .input k', i, k, j => k = k' ∧ j = i
  | .op _ a b, i, k, j => a.Reads i k j ∨ b.Reads i k j
  | .opS _ a _, i, k, j => a.Reads i k j
  | .rop _ _ a, i, k, j => a.Reads i k j
  | .abs a, i, k, j => a.Reads i k j
  | .clipLo a _, i, k, j => a.Reads i k j
  | .clipHi a _, i, k, j => a.Reads i k j
  | .clipLoL a b, i, k, j => a.Reads i k j ∨ b.Reads i k j
  | .clipHiL a b, i, k, j => a.Reads i k j ∨ b.Reads i k j
  | .shift s a, i, k, j => s ≤ i ∧ a.Reads (i - s) k j
  | .diff s a, i, k, j => a.Reads i k j ∨ (s ≤ i ∧ a.Reads (i - s) k j)
  | .rolling w _ a, i, k, j => ∃ d, d ≤ w ∧ d ≤ i ∧ a.Reads (i - d) k j

/-- nothing is divided -/
def Formula.NoDiv : Formula K → Prop
  | .input _ => True
  | .op o a b => o ≠ .div ∧ a.NoDiv ∧ b.NoDiv
  | .opS o a _ => o ≠ .div ∧ a.NoDiv
  | .rop o _ a => o ≠ .div ∧ a.NoDiv
  | .abs a | .clipLo a _ | .clipHi a _ | .shift _ a | .diff _ a | .rolling _ _ a => a.NoDiv
  | .clipLoL a b | .clipHiL a b => a.NoDiv ∧ b.NoDiv

variable [Field K] [LinearOrder K] [IsStrictOrderedRing K]

/-- the operator on two values -/
def Arith.fn : Arith → Ext K → Ext K → Ext K
  | .add => (· + ·)
  | .sub => (· - ·)
  | .mul => (· * ·)
  | .div => (· / ·)

/-- the window function on one window -/
def WinFn.fn : WinFn → List (Ext K) → Ext K
  | .sum => aggSum
  | .mean => aggMean
  | .max => aggMax
  | .min => aggMin

/-- Evaluation with the modelled operations of `Line` (lines.py:108-162, 207-397). -/
def Formula.eval (env : ℕ → Line (Ext K)) : Formula K → Line (Ext K)
  | .input k => env k
  | .op .add a b => a.eval env + b.eval env
  | .op .sub a b => a.eval env - b.eval env
  | .op .mul a b => a.eval env * b.eval env
  | .op .div a b => a.eval env / b.eval env
  | .opS .add a c => Line.addS (a.eval env) (.fin c)
  | .opS .sub a c => Line.subS (a.eval env) (.fin c)
  | .opS .mul a c => Line.mulS (a.eval env) (.fin c)
  | .opS .div a c => Line.divS (a.eval env) (.fin c)
  | .rop .add c a => Line.raddS (.fin c) (a.eval env)
  | .rop .sub c a => Line.rsubS (.fin c) (a.eval env)
  | .rop .mul c a => Line.rmulS (.fin c) (a.eval env)
  | .rop .div c a => Line.rdivS (.fin c) (a.eval env)
  | .abs a => Line.abs (a.eval env)
  | .clipLo a c => Line.clipLoS (a.eval env) (.fin c)
  | .clipHi a c => Line.clipHiS (a.eval env) (.fin c)
  | .clipLoL a b => Line.clipLoL (a.eval env) (b.eval env)
  | .clipHiL a b => Line.clipHiL (a.eval env) (b.eval env)
  | .shift s a => Line.shift s (a.eval env)
  | .diff s a => Line.diff s (a.eval env)
  | .rolling w fn a => Line.rolling (w + 1) fn.fn (a.eval env)

end Bta
