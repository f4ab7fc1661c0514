import Verif.Ind.Catalog
import Mathlib.Algebra.Order.Floor.Defs
import Mathlib.Data.Rat.Floor

/-!
# dtypes: lines of floats, of whole numbers and of booleans

`Line.lean` models lines of floats and of booleans.  A series of a user can also hold whole numbers (dtype `int64`, e.g. a
volume).  Here a line carries its dtype, and the operations choose the dtype of the result as numpy does.  What the library
adds is how a result is stored (lines.py:120, 130-131 and 139, 152-153): the warm-up holds nan, then `astype(r.dtype)`.  For floats
nothing changes, for booleans nan becomes `True`, for whole numbers there is no value for nan: pandas raises ValueError.

Whole numbers are not bounded here (`int64` has 64 bits, and numbers above 2^53 lose digits when stored among floats).
-/

set_option linter.unusedSectionVars false
set_option linter.unusedVariables false

namespace Bta
open Line

variable {V : Type} [PyFloat V]

namespace Dt

/-- a line with its dtype (lines.py:456-459, the dtype of `_series`) -/
inductive TL (V : Type) where
  | bool (l : Line Bool)
  | int (l : Line ℤ)
  | flt (l : Line V)

/-- a whole number as float (numpy) -/
def ofInt (z : ℤ) : V := lit (z : ℚ)

/-- conversion of each element to float, as numpy does it for an operation with floats (lines.py:129, 151, 371-381) -/
def TL.toFlt : TL V → Line V
  | .bool l => ⟨l.series.map ofBool, l.minperiod⟩
  | .int l => ⟨l.series.map ofInt, l.minperiod⟩
  | .flt l => l

/-- conversion to whole numbers of booleans (as numpy does it for an operation with whole numbers); never used for
floats (lines.py:129, 151) -/
def TL.toInt : TL V → Line ℤ
  | .bool l => ⟨l.series.map fun b => if b then 1 else 0, l.minperiod⟩
  | .int l => l
  | .flt l => ⟨l.series.map fun _ => 0, l.minperiod⟩

/-- whether the dtype is float (lines.py:131, `r.dtype`) -/
def TL.isFlt : TL V → Bool
  | .flt _ => true
  | _ => false

/-- what stops a calculation: an exception of python, or something which is not modelled here (dtype `object`, ...).
(lines.py:131, 153: `astype` raises) -/
inductive Stop where
  | raises (e : Err)
  | outside
deriving DecidableEq, Repr

/-- an exception raised by a calculation with floats (lines.py:129, 151, 380) -/
def lift {α : Type} : Except Err α → Except Stop α
  | .ok a => .ok a
  | .error e => .error (.raises e)

/-- `result.astype(r.dtype)` for whole numbers (lines.py:131, 153): with a bar in the warm-up, which holds nan, pandas
raises "Cannot convert non-finite values (NA or inf) to integer"; without, `l` is the result. -/
def storeInt (l : Line ℤ) : Except Stop (TL V) :=
  if 0 < pyStart l.series.length (l.minperiod - 1) then .error (.raises .valueError) else .ok (.int l)

/-- `+`, `-`, `*`, `/` (linesops.py:45, 51, 49, 52) -/
inductive AOp where
  | add | sub | mul | div
deriving DecidableEq

/-- on floats (linesops.py:45-52) -/
def AOp.flt : AOp → V → V → V
  | .add => (· + ·)
  | .sub => (· - ·)
  | .mul => (· * ·)
  | .div => (· / ·)

/-- on whole numbers (linesops.py:45-52); `/` gives floats, never used -/
def AOp.int : AOp → ℤ → ℤ → ℤ
  | .add => (· + ·)
  | .sub => (· - ·)
  | .mul => (· * ·)
  | .div => fun a _ => a

/-- on two boolean lines (linesops.py:45-52): `+` is "or", `*` is "and", numpy refuses `-` (TypeError), pandas refuses `/` -/
def arithBB (op : AOp) (a b : Line Bool) : Except Stop (TL V) :=
  match op with
  | .add => .ok (.bool (binop (fun x y => x || y) true a b))
  | .mul => .ok (.bool (binop (fun x y => x && y) true a b))
  | .sub => .error (.raises .typeError)
  | .div => .error .outside

/-- on two lines which are not both boolean: floats if there is one among the operands or for `/`, else whole numbers.
(`binary_op`, lines.py:108-134) -/
def arithNum (op : AOp) (a b : TL V) : Except Stop (TL V) :=
  if a.isFlt || b.isFlt || op == .div then .ok (.flt (bin op.flt a.toFlt b.toFlt))
  else storeInt (binop op.int 0 a.toInt b.toInt)

/-- arithmetic between two lines (`binary_op`, lines.py:108-134) -/
def arith (op : AOp) : TL V → TL V → Except Stop (TL V)
  | .bool a, .bool b => arithBB op a b
  | a, b => arithNum op a b

/-- a number given by the user: a python int or float (lines.py:124-125) -/
inductive Sc (V : Type) where
  | int (z : ℤ)
  | flt (v : V)

/-- as float (numpy, lines.py:129) -/
def Sc.toFlt : Sc V → V
  | .int z => ofInt z
  | .flt v => v

/-- as whole number; never used for floats (numpy, lines.py:129) -/
def Sc.toInt : Sc V → ℤ
  | .int z => z
  | .flt _ => 0

/-- whether it is a float -/
def Sc.isFlt : Sc V → Bool
  | .flt _ => true
  | .int _ => false

/-- operands in the order in which they were written: `rev` for `c + line` (`__radd__`, ... linesops.py:45-52) -/
def flipIf {α β : Type} (rev : Bool) (f : α → α → β) : α → α → β := fun x c => if rev then f c x else f x c

/-- arithmetic between a line and a number (`binary_op`, lines.py:108-134) -/
def arithS (op : AOp) (rev : Bool) (a : TL V) (c : Sc V) : Except Stop (TL V) :=
  if a.isFlt || c.isFlt || op == .div then .ok (.flt (binS (flipIf rev op.flt) a.toFlt c.toFlt))
  else storeInt (binopS (flipIf rev op.int) 0 a.toInt c.toInt)

/-- comparison (`binary_op`, lines.py:108-134, linesops.py:37-42): numbers are compared by value, the result is boolean -/
def compare (f : V → V → Bool) (a b : TL V) : Except Stop (TL V) := .ok (.bool (cmp f a.toFlt b.toFlt))

/-- comparison with a number (as `compare`, lines.py:108-134) -/
def compareS (f : V → V → Bool) (a : TL V) (c : Sc V) : Except Stop (TL V) := .ok (.bool (cmpS f a.toFlt c.toFlt))

/-- `&`, `|`, `^` of boolean lines (linesops.py:55); of others not modelled -/
def logic (f : Bool → Bool → Bool) : TL V → TL V → Except Stop (TL V)
  | .bool a, .bool b => .ok (.bool (binop f true a b))
  | _, _ => .error .outside

/-- element-wise operations which keep whole numbers: `abs()` (linesops.py:71), `pow(2)` (linesops.py:50) -/
inductive UOp where
  | abs | sq
deriving DecidableEq

/-- on floats (linesops.py:71, 50) -/
def UOp.flt : UOp → V → V
  | .abs => absv
  | .sq => fun v => v * v

/-- on whole numbers (linesops.py:71, 50) -/
def UOp.int : UOp → ℤ → ℤ
  | .abs => fun z => |z|
  | .sq => fun z => z * z

/-- element-wise operation (`standard_op`, lines.py:137-162); of booleans not modelled -/
def unary (op : UOp) : TL V → Except Stop (TL V)
  | .bool _ => .error .outside
  | .int l => storeInt (stdop (List.map op.int) 0 0 l)
  | .flt l => .ok (.flt (mapOp op.flt l))

/-- `Series.cumsum()` of whole numbers (linesops.py:85) -/
def cumInt (acc : ℤ) : List ℤ → List ℤ
  | [] => []
  | x :: xs => (acc + x) :: cumInt (acc + x) xs

/-- `line.cumsum()` (`standard_op`, lines.py:137-162, linesops.py:85): of booleans the number of `True` so far -/
def cumsumT : TL V → Except Stop (TL V)
  | .flt l => .ok (.flt l.cumsum)
  | a => storeInt (stdop (cumInt 0) 0 0 a.toInt)

/-- operations which turn whole numbers into floats: `diff`, `shift` by one or more bars, `pct_change`, `apply` of a function of
numpy (`standard_op`, lines.py:137-162, linesops.py:66-68, 73).  Of booleans they give dtype `object`, not modelled. -/
def std (F : Line V → Except Err (Line V)) : TL V → Except Stop (TL V)
  | .bool _ => .error .outside
  | a => (lift (F a.toFlt)).map .flt

/-- operations whose result is float whatever they are given: windows and exponential means (lines.py:359-383), hence all
averages, and the loops of `sar`, the Hilbert family and `mama`, which write to a buffer of floats (lines.py:577-587) -/
def win (F : Line V → Except Err (Line V)) (a : TL V) : Except Stop (TL V) := (lift (F a.toFlt)).map .flt

/-- the same with two lines (`rolling(..).corr(other)`, `high._apply(self._sarize, low, ...)`; lines.py:371-381, 577-587) -/
def win2 (F : Line V → Line V → Except Err (Line V)) (a b : TL V) : Except Stop (TL V) :=
  (lift (F a.toFlt b.toFlt)).map .flt

/-- `clip` with a line as bound (linesops.py:77): floats if the clipped line has floats; else not modelled -/
def clip2 (F : Line V → Line V → Line V) : TL V → TL V → Except Stop (TL V)
  | .flt a, b => .ok (.flt (F a b.toFlt))
  | _, _ => .error .outside

/-- Formulas over lines with dtypes (the operations of lines.py:108-205, 359-383 as installed by linesops.py:32-167). -/
inductive TE (V : Type) where
  | inp (k : ℕ)
  | arith (op : AOp) (a b : TE V)
  | arithS (op : AOp) (rev : Bool) (a : TE V) (c : Sc V)
  | cmp (f : V → V → Bool) (a b : TE V)
  | cmpS (f : V → V → Bool) (a : TE V) (c : Sc V)
  | logic (f : Bool → Bool → Bool) (a b : TE V)
  | unary (op : UOp) (a : TE V)
  | cumsum (a : TE V)
  | std (F : Line V → Except Err (Line V)) (a : TE V)
  | win (F : Line V → Except Err (Line V)) (a : TE V)
  | win2 (F : Line V → Line V → Except Err (Line V)) (a b : TE V)
  | clip2 (F : Line V → Line V → Line V) (a b : TE V)

/-- the value of a formula: operands from left to right, then the operation (python's order; lines.py:108-205) -/
def TE.eval (env : ℕ → TL V) : TE V → Except Stop (TL V)
  | .inp k => .ok (env k)
  | .arith op a b => do Dt.arith op (← a.eval env) (← b.eval env)
  | .arithS op rev a c => do Dt.arithS op rev (← a.eval env) c
  | .cmp f a b => do Dt.compare f (← a.eval env) (← b.eval env)
  | .cmpS f a c => do Dt.compareS f (← a.eval env) c
  | .logic f a b => do Dt.logic f (← a.eval env) (← b.eval env)
  | .unary op a => do Dt.unary op (← a.eval env)
  | .cumsum a => do Dt.cumsumT (← a.eval env)
  | .std F a => do Dt.std F (← a.eval env)
  | .win F a => do Dt.win F (← a.eval env)
  | .win2 F a b => do Dt.win2 F (← a.eval env) (← b.eval env)
  | .clip2 F a b => do Dt.clip2 F (← a.eval env) (← b.eval env)

/-! ## The formulas of the indicators

`form c` are the formulas of the outputs of the call `c`, as written in the `__init__` methods (the same lines as cited in
`Ind/Core.lean`), with the operations above.  Averages (`_ma`, `_smoother`, ...) and the loops count as one operation: they
begin with an operation whose result is float. -/

/-- an operation which cannot raise (lines.py:137-162, 359-383) -/
abbrev okF (f : Line V → Line V) : Line V → Except Err (Line V) := fun l => .ok (f l)
/-- `a + b` (linesops.py:45) -/
abbrev fadd (a b : TE V) : TE V := .arith .add a b
/-- `a - b` (linesops.py:51) -/
abbrev fsub (a b : TE V) : TE V := .arith .sub a b
/-- `a * b` (linesops.py:49) -/
abbrev fmul (a b : TE V) : TE V := .arith .mul a b
/-- `a / b` (linesops.py:52) -/
abbrev fdiv (a b : TE V) : TE V := .arith .div a b
/-- `a / c` (linesops.py:52) -/
abbrev fdivS (a : TE V) (c : V) : TE V := .arithS .div false a (.flt c)
/-- `a * c` (linesops.py:49) -/
abbrev fmulS (a : TE V) (c : V) : TE V := .arithS .mul false a (.flt c)
/-- `a - c` (linesops.py:51) -/
abbrev fsubS (a : TE V) (c : V) : TE V := .arithS .sub false a (.flt c)
/-- `c * a` (linesops.py:49) -/
abbrev frmul (c : V) (a : TE V) : TE V := .arithS .mul true a (.flt c)
/-- `c - a` (linesops.py:51) -/
abbrev frsub (c : V) (a : TE V) : TE V := .arithS .sub true a (.flt c)
/-- `c / a` (linesops.py:52) -/
abbrev frdiv (c : V) (a : TE V) : TE V := .arithS .div true a (.flt c)
/-- `c + a` (linesops.py:45) -/
abbrev fradd (c : V) (a : TE V) : TE V := .arithS .add true a (.flt c)
/-- `a(-k)` (lines.py:477-479), `k ≥ 1` -/
abbrev fago (k : ℕ) (a : TE V) : TE V := .std (okF (ago (-(k : Int)))) a
/-- `a.diff(periods=k)` (linesops.py:66) -/
abbrev fdiff (k : ℕ) (a : TE V) : TE V := .std (okF (Line.diff k)) a
/-- `a.rolling(window=p).<agg>()` (lines.py:359-383) -/
abbrev froll (p : ℕ) (agg : List V → V) (a : TE V) : TE V := .win (okF (rolling p agg)) a
/-- input `k` (price.py:28-30, ...) -/
abbrev fin (k : ℕ) : TE V := .inp k

/-- `truelow` (atr.py:58-59) -/
def fTruelow (q : ℕ) (l c : TE V) : TE V := .clip2 clipHiL (fago q c) l
/-- `truerange` (atr.py:88-92) -/
def fTruerange (q : ℕ) (h l c : TE V) : TE V := fsub (.clip2 clipLoL (fago q c) h) (.clip2 clipHiL (fago q c) l)
/-- `tprice` (mfi.py:39, cci.py:38) -/
def fTyp (h l c : TE V) (d : V) : TE V := fdivS (fadd (fadd h l) c) d
/-- `mfi`: one of the flows (mfi.py:39-43) -/
def fFlow (p : ℕ) (f : V → V → Bool) : TE V :=
  let tp := fTyp (fin 0) (fin 1) (fin 2) (lit 3)
  froll p aggSum (fmul (fmul tp (fin 3)) (.cmp f tp (fago 1 tp)))
/-- `stochf`, output `k` (stochastic.py:41-44) -/
def fStochK (p : ℕ) : TE V :=
  fdiv (frmul (lit 100) (fsub (fin 2) (froll p aggMin (fin 1)))) (fsub (froll p aggMax (fin 0)) (froll p aggMin (fin 1)))
/-- `ad` (ad.py:32-37) -/
def fAd : TE V :=
  .cumsum (fmul (fdiv (fsub (fsub (frmul (lit 2) (fin 2)) (fin 0)) (fin 1)) (fsub (fin 0) (fin 1))) (fin 3))
/-- one component of `aroon` (aroon.py:35-36, 38-39) -/
def fAroon (arg : List V → Nat) (p : ℕ) (a : TE V) : TE V :=
  frsub (lit 100) (fdivS (frmul (lit 100) (froll (p + 1) (aggApply fun w => lit (arg w.reverse)) a)) (lit p))
/-- `rsi` (rsi.py:42-48) -/
def fRsi (ma : MA V) (lookback p : ℕ) : TE V :=
  let up := TE.std (okF fun l => l.clipLoS (lit 0)) (fdiff lookback (fin 0))
  let dn := TE.unary .abs (TE.std (okF fun l => l.clipHiS (lit 0)) (fdiff lookback (fin 0)))
  frsub (lit 100) (frdiv (lit 100) (fradd (lit 1) (fdiv (.win (ma p) up) (.win (ma p) dn))))
/-- `ppo` without its signal (ppo.py:21-25, 76-77, 112-115); the average with `pfast` is always calculated first -/
def fPpo (fast : Bool) (ma : MA V) (pf ps : ℕ) : TE V :=
  let a := TE.win (ma pf) (fin 0)
  let b := TE.win (ma ps) (fin 0)
  frmul (lit 100) (fsubS (if fast then .win2 (fun x y => .ok (y / x)) a b else fdiv a b) (lit 1))
/-- `stochrsi` (stochrsi.py:42-48) -/
def fStochrsi (p philo : ℕ) (scale : V) : TE V :=
  let r := fRsi Ind.smma 1 p
  fmulS (fdiv (fsub r (froll philo aggMin r)) (fsub (froll philo aggMax r) (froll philo aggMin r))) scale
/-- `cmo` (cmo.py:32-36) -/
def fCmo (sum : MA V) (p : ℕ) : TE V :=
  let up := TE.win (sum p) (.std (okF fun l => l.clipLoS (lit 0)) (fdiff 1 (fin 0)))
  let dn := TE.win (sum p) (.unary .abs (.std (okF fun l => l.clipHiS (lit 0)) (fdiff 1 (fin 0))))
  fdiv (frmul (lit 100) (fsub up dn)) (fadd up dn)
/-- `beta` (beta.py:44-53) from its two lines -/
def fBeta (p : ℕ) (x y : TE V) : TE V :=
  let s (a : TE V) := froll p aggSum a
  fdiv (fsub (frmul (lit p) (s (fmul x y))) (fmul (s x) (s y)))
    (fsub (frmul (lit p) (s (.unary .sq x))) (.unary .sq (s x)))
/-- `idiff` of `_crossbase` (crossover.py:29-34) -/
def fCrossDiff (strict : Bool) : TE V :=
  let d := TE.std (okF (shift 1)) (fsub (fin 0) (fin 1))
  if strict then d else .std (okF (stdop replaceZeroL nan 0)) d
/-- +DM of one bar (directionalmove.py:92-96) -/
def fPdm (q : ℕ) : TE V :=
  let up := fdiff q (fin 0)
  let dn := fsub (fago q (fin 1)) (fin 1)
  fmul (.std (okF fun l => l.clipLoS (lit 0)) up) (.cmp (fun x y => lt y x) up dn)
/-- -DM of one bar (directionalmove.py:92-93, 100) -/
def fMdm (q : ℕ) : TE V :=
  let up := fdiff q (fin 0)
  let dn := fsub (fago q (fin 1)) (fin 1)
  fmul (.std (okF fun l => l.clipLoS (lit 0)) dn) (.cmp (fun x y => lt y x) dn up)
/-- division by the smoothed true range (directionalmove.py:251-260) -/
def fDi (dm : TE V) (smooth : Line V → Except Err (Line V)) (q : ℕ) (talib : Bool) : TE V :=
  .win2 (fun x t => .ok ((rmulS (lit 100) x).op (· / ·) nan
    (.holder ((Holder.ofOutputs t []).period (if talib then 1 else 0))))) (.win smooth dm)
    (.win smooth (fTruerange q (fin 0) (fin 1) (fin 2)))
/-- `dx` (directionalmove.py:399-400) -/
def fDx (smooth : Line V → Except Err (Line V)) (q : ℕ) (talib : Bool) : TE V :=
  let p := fDi (fPdm q) smooth q talib
  let m := fDi (fMdm q) smooth q talib
  fdiv (frmul (lit 100) (.unary .abs (fsub p m))) (fadd p m)

/-- `_cup` (crossover.py:36-37) -/
def fCup (strict : Bool) : TE V :=
  .logic (fun x y => x && y) (.cmpS (fun x y => lt x y) (fCrossDiff strict) (.flt (lit 0)))
    (.cmp (fun x y => lt y x) (fin 0) (fin 1))
/-- `_cdown` (crossover.py:39-40) -/
def fCdown (strict : Bool) : TE V :=
  .logic (fun x y => x && y) (.cmpS (fun x y => lt y x) (fCrossDiff strict) (.flt (lit 0)))
    (.cmp (fun x y => lt x y) (fin 0) (fin 1))

/-- The formulas of the outputs of each call. (the `__init__` methods of indicators/*.py) -/
def form : Call V → List (TE V)
  | .avg m p => [.win (m.run p) (fin 0)]
  | .add => [fadd (fin 0) (fin 1)]
  | .sub => [fsub (fin 0) (fin 1)]
  | .mult => [fmul (fin 0) (fin 1)]
  | .div => [fdiv (fin 0) (fin 1)]
  | .max p => [froll p aggMax (fin 0)]
  | .min p => [froll p aggMin (fin 0)]
  | .minmax p => [froll p aggMin (fin 0), froll p aggMax (fin 0)]
  | .maxindex p => [.win (okF (Ind.maxindex p)) (fin 0)]
  | .minindex p => [.win (okF (Ind.minindex p)) (fin 0)]
  | .maxindexAbs p => [.win (okF (Ind.maxindexAbs p)) (fin 0)]
  | .minindexAbs p => [.win (okF (Ind.minindexAbs p)) (fin 0)]
  | .avgprice d => [fdivS (fadd (fadd (fadd (fin 0) (fin 1)) (fin 2)) (fin 3)) d]
  | .typprice d => [fTyp (fin 0) (fin 1) (fin 2) d]
  | .wclprice w d => [fdivS (fadd (fadd (fin 0) (fin 1)) (fmulS (fin 2) w)) d]
  | .medprice d => [fdivS (fadd (fin 0) (fin 1)) d]
  | .macd mf ma ms pf ps pg =>
    let m := fsub (.win (mf.run pf) (fin 0)) (.win (ma.run ps) (fin 0))
    [m, .win (ms.run pg) m, fsub m (.win (ms.run pg) m)]
  | .apo ma pf ps => [fsub (.win (ma.run pf) (fin 0)) (.win (ma.run ps) (fin 0))]
  | .mom p => [fdiff p (fin 0)]
  | .rocr p => [fdiv (fin 0) (fago p (fin 0))]
  | .roc p => [frmul (lit 100) (fsubS (fdiv (fin 0) (fago p (fin 0))) (lit 1))]
  | .rocp p => [fsubS (fdiv (fin 0) (fago p (fin 0))) (lit 1)]
  | .rocr100 p => [frmul (lit 100) (fdiv (fin 0) (fago p (fin 0)))]
  | .rsi ma lb p => [fRsi ma.run lb p]
  | .mad p => [.win (okF (Ind.mad p)) (fin 0)]
  | .cci ma f p =>
    let tp := fTyp (fin 0) (fin 1) (fin 2) (lit 3)
    [fdiv (fsub tp (.win (ma.run p) tp)) (fmulS (.win (okF (Ind.mad p)) tp) f)]
  | .var d p => [.win (okF (Ind.var d p)) (fin 0)]
  | .stddev sq d p => [.win (okF (Ind.stddev sq d p)) (fin 0)]
  | .bbands sq ma d p =>
    let mid := TE.win (ma.run p) (fin 0)
    let dev := frmul d (.win (okF (Ind.stddev sq 0 p)) (fin 0))
    [mid, fadd mid dev, fsub mid dev]
  | .stochf ma p pf => [fStochK p, .win (ma.run pf) (fStochK p)]
  | .stochastic ma ms p pf ps =>
    [.win (ma.run pf) (fStochK p), .win (ms.run ps) (.win (ma.run pf) (fStochK p))]
  | .williamsr p => [fdiv (frmul (lit (-100)) (fsub (froll p aggMax (fin 0)) (fin 2)))
      (fsub (froll p aggMax (fin 0)) (froll p aggMin (fin 1)))]
  | .stochrsi p ph s => [fStochrsi p ph s]
  | .midprice p => [fdivS (fadd (froll p aggMax (fin 0)) (froll p aggMin (fin 1))) (lit 2)]
  | .midpoint p => [fdivS (fadd (froll p aggMax (fin 0)) (froll p aggMin (fin 0))) (lit 2)]
  | .bop => [fdiv (fsub (fin 3) (fin 0)) (fsub (fin 1) (fin 2))]
  | .truelow q => [fTruelow q (fin 0) (fin 1)]
  | .truerange q => [fTruerange q (fin 0) (fin 1) (fin 2)]
  | .atr ma q p => [.win (ma.run p) (fTruerange q (fin 0) (fin 1) (fin 2))]
  | .natr ma q p =>
    [fdiv (frmul (lit 100) (.win (ma.run p) (fTruerange q (fin 0) (fin 1) (fin 2)))) (fin 2)]
  | .ultosc p1 p2 p3 f1 f2 f3 =>
    let bp := fsub (fin 2) (fTruelow 1 (fin 1) (fin 2))
    let tr := fTruerange 1 (fin 0) (fin 1) (fin 2)
    let av (p : ℕ) := fdiv (froll p aggSum bp) (froll p aggSum tr)
    let factor := lit 100 / (f1 + f2 + f3)
    [fadd (fadd (frmul (f1 * factor) (av p1)) (frmul (f2 * factor) (av p2))) (frmul (f3 * factor) (av p3))]
  | .mfi p => [frsub (lit 100) (frdiv (lit 100) (fradd (lit 1)
      (fdiv (fFlow p fun x y => lt y x) (fFlow p fun x y => lt x y))))]
  | .ad => [fAd]
  | .adosc ma pf ps => [fsub (.win (ma.run pf) fAd) (.win (ma.run ps) fAd)]
  | .aroon p => [fAroon argminV p (fin 1), fAroon argmaxV p (fin 0)]
  | .aroonosc p => [fsub (fAroon argmaxV p (fin 0)) (fAroon argminV p (fin 1))]
  | .linregSlope p => [.win (okF (Ind.linregSlope p)) (fin 0)]
  | .linregAngle at' d p => [.win (okF (Ind.linregAngle at' d p)) (fin 0)]
  | .linregIntercept t p => [.win (okF (Ind.linregIntercept t p)) (fin 0)]
  | .linreg p => [.win (okF (Ind.linreg p)) (fin 0)]
  | .tsf p => [.win (okF (Ind.tsf p)) (fin 0)]
  | .beta r pr p =>
    let x (k : ℕ) : TE V := if r then .std (okF (pctChange pr)) (fin k) else fin k
    [fBeta p (x 0) (x 1)]
  | .correl sq p => [.win2 (fun a b => .ok (Ind.correl sq p a b)) (fin 0) (fin 1)]
  | .crossup s => [.arithS .mul true (fCup s) (.flt (lit 1))]
  | .crossdown s => [.arithS .mul true (fCdown s) (.flt (lit (-1)))]
  | .crossover s => [fsub (fCup s) (fCdown s)]
  | .plusDm sm ps q => [.win (sm.run ps) (fPdm q)]
  | .minusDm sm ps q => [.win (sm.run ps) (fMdm q)]
  | .dm sm ps q => [.win (sm.run ps) (fPdm q), .win (sm.run ps) (fMdm q)]
  | .plusDi sm ps q t => [fDi (fPdm q) (sm.run ps) q t]
  | .minusDi sm ps q t => [fDi (fMdm q) (sm.run ps) q t]
  | .di sm ps q t => [fDi (fPdm q) (sm.run ps) q t, fDi (fMdm q) (sm.run ps) q t]
  | .dx sm ps q t => [fDx (sm.run ps) q t]
  | .adx sm ma ps q t p => [.win (ma.run p) (fDx (sm.run ps) q t)]
  | .sar af am => [.win2 (Ind.sar af am) (fin 0) (fin 1)]
  | .sarext P => [.win2 (Ind.sarext P) (fin 0) (fin 1)]
  | .htDcperiod F => [.win (okF (Ind.htDcperiod F)) (fin 0)]
  | .htPhasor F => [.win (okF (Ind.htInphase F)) (fin 0), .win (okF (Ind.htQuadrature F)) (fin 0)]
  | .mathFn f => [.std (okF (Ind.mathFn f)) (fin 0)]
  | .minmaxindex b p => if b then [.win (okF (Ind.minindexAbs p)) (fin 0), .win (okF (Ind.maxindexAbs p)) (fin 0)]
    else [.win (okF (Ind.minindex p)) (fin 0), .win (okF (Ind.maxindex p)) (fin 0)]
  | .ppo fast ma ms pf ps pg =>
    let m := fPpo fast ma.run pf ps
    [m, .win (ms.run pg) m, fsub m (.win (ms.run pg) m)]
  | .cmo sum p => [fCmo sum.run p]
  | .stochrsiD ma p ph pf s => [fStochrsi p ph s, .win (ma.run pf) (fStochrsi p ph s)]
  | .obv t q =>
    let d := fdiff q (fin 0)
    let d := if t then TE.std (okF (period (-1) (some (lit 1)))) d else d
    [.cumsum (fmul (fin 1) (.std (okF (mapOp signV)) d))]
  | .adxr sm ma ps q t p pr =>
    let x := TE.win (ma.run p) (fDx (sm.run ps) q t)
    let per : Int := (match pr with | none => (p : Int) | some 0 => p | some r => r) - (if t then 1 else 0)
    [fdivS (fadd x (.std (okF (ago (-per))) x)) (lit 2)]
  | .htDcphase F => [.win (fun l => do Ind.htCheck F l; return Ind.htDcphase F l) (fin 0)]
  | .htSine F => [.win (fun l => do Ind.htCheck F l; return Ind.htSine F l) (fin 0),
      .win (fun l => do Ind.htCheck F l; return Ind.htLeadsine F l) (fin 0)]
  | .htTrendline F => [.win (fun l => do Ind.htCheck F l; return Ind.htTrendline F l) (fin 0)]
  | .htTrendmode F => [.win (fun l => do Ind.htCheck F l; return Ind.htTrendmode F l) (fin 0)]
  | .mama F at' f s => [.win (fun l => do return (← Ind.mama F at' f s l).1) (fin 0),
      .win (fun l => do return (← Ind.mama F at' f s l).2) (fin 0)]

/-! ## mavp -/

/-- `mavp` of whole numbers (mavp.py:8-14, 61; lines.py:577-587): `_mavp` writes the averages into a copy of the closes
(`closes[i] = ...`), which is an array of whole numbers: each value is cut (`trunc`: towards zero, raises for nan and
infinities).  The array then goes into a series of floats. -/
def mavpInt (trunc : V → Except Err ℤ) (ma : MA V) (minp maxp : Nat) (talib : Bool) (close : Line ℤ)
    (periods : List Nat) : Except Err (Line V) := do
  let m ← Ind.mavp ma minp maxp talib (TL.int close).toFlt periods
  let r ← (pyFrom m.series (m.minperiod - 1)).mapM trunc
  return ⟨setFrom m.series.length nan (m.minperiod - 1) (r.map ofInt), m.minperiod⟩

/-- cutting a value to a whole number (`int(x)`, numpy's assignment to an element of an array of whole numbers, mavp.py:12) -/
def truncE {K : Type} [Field K] [LinearOrder K] [FloorRing K] : Ext K → Except Err ℤ
  | .fin x => .ok (if 0 ≤ x then ⌊x⌋ else ⌈x⌉)
  | .nan => .error .valueError
  | _ => .error .overflowError

end Dt
end Bta
