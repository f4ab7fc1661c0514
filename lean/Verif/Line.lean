import Verif.Kernel

/-!
# Lines: `btalib/meta/lines.py`
-/

set_option linter.unusedSectionVars false

namespace Bta

/-- Exceptions of the modelled code. (errors.py, and those python and pandas raise) -/
inductive Err where
  | indexError | valueError | overflowError | typeError | attributeError | keyError
  | recursionError
  | oneInputNeeded | multiDimType | multiDimSmall | pandasNotTopStack
  | colIdxStrNotFound (input col : String)
deriving DecidableEq, Repr

/-- `Line` (lines.py:456-459): a pandas series (`_series`) and a minimum period (`_minperiod`).
`α` reflects the dtype: the float type `V` or `Bool`. -/
structure Line (α : Type) where
  /-- `_series` -/
  series : List α
  /-- `_minperiod` -/
  minperiod : Int
deriving DecidableEq, Repr

namespace Line
variable {α β γ : Type}

/-- `Line(pd.Series)` (lines.py:437-439): minimum period 1. -/
def ofSeries (xs : List α) : Line α := ⟨xs, 1⟩

/-- `_clone(series, period)` (lines.py:501-504): `line._minperiod = period or self._minperiod`, i.e. a period of
0 is taken as "not given". -/
def clone (self : Line β) (series : List α) (period : Int) : Line α :=
  ⟨series, if period = 0 then self.minperiod else period⟩

/-- `binary_op` (lines.py:108-134) with a Line as other operand.  `f` is the element-wise operation.
`fill` is what the warm-up region holds after `astype(r.dtype)`: nan for floats, `True` for booleans
(`bool(nan)` is `True`). -/
def binop (f : α → β → γ) (fill : γ) (a : Line α) (b : Line β) : Line γ :=
  let minperiod := max a.minperiod b.minperiod
  let minidx := minperiod - 1
  let r := List.zipWith f (pyFrom a.series minidx) (pyFrom b.series minidx)
  clone a (setFrom a.series.length fill minidx r) minperiod

/-- `binary_op` (lines.py:108-134) with a scalar as other operand: it counts as minimum period 1 (line 117) and
is used as is (lines 124-125). -/
def binopS (f : α → β → γ) (fill : γ) (a : Line α) (c : β) : Line γ :=
  let minperiod := max a.minperiod 1
  let minidx := minperiod - 1
  let r := (pyFrom a.series minidx).map fun x => f x c
  clone a (setFrom a.series.length fill minidx r) minperiod

/-- `standard_op` (lines.py:137-162) without series arguments.  `g` is the pandas operation on the capped
series; `inc` is what `parg` adds to the minimum period (0 without `parg`). -/
def stdop (g : List α → List β) (fill : β) (inc : Int) (a : Line α) : Line β :=
  let minperiod := a.minperiod
  let minidx := minperiod - 1
  let r := clone a (setFrom a.series.length fill minidx (g (pyFrom a.series minidx))) minperiod
  ⟨r.series, r.minperiod + inc⟩

/-- `standard_op` (lines.py:137-162) with one series argument (`sargs`/`skwargs`): `_minperiodize`
(lines.py:546-575) takes the max of both minimum periods and caps both series. -/
def stdop2 (g : List α → List β → List γ) (fill : γ) (a : Line α) (b : Line β) : Line γ :=
  let minperiod := max a.minperiod b.minperiod
  let minidx := minperiod - 1
  clone a (setFrom a.series.length fill minidx (g (pyFrom a.series minidx) (pyFrom b.series minidx))) minperiod

/-- `Line._apply(func)` (lines.py:577-587) without series arguments. -/
def apply (g : List α → List β) (fill : β) (a : Line α) : Line β :=
  let minperiod := a.minperiod
  let minidx := minperiod - 1
  clone a (setFrom a.series.length fill minidx (g (pyFrom a.series minidx))) minperiod

/-- `Line._apply(func, other)` (lines.py:577-587) with one series argument. -/
def apply2 (g : List α → List β → List γ) (fill : γ) (a : Line α) (b : Line β) : Line γ :=
  stdop2 g fill a b

variable {V : Type} [PyFloat V]

/-- float valued binary operation (lines.py:108-134) -/
abbrev bin (f : V → V → V) (a b : Line V) : Line V := binop f nan a b
/-- float valued binary operation with scalar (lines.py:108-134) -/
abbrev binS (f : V → V → V) (a : Line V) (c : V) : Line V := binopS f nan a c
/-- comparison (lines.py:108-134, linesops.py:37-42) -/
abbrev cmp (f : V → V → Bool) (a b : Line V) : Line Bool := binop f true a b
/-- comparison with scalar (lines.py:108-134, linesops.py:37-42) -/
abbrev cmpS (f : V → V → Bool) (a : Line V) (c : V) : Line Bool := binopS f true a c

instance : Add (Line V) := ⟨bin (· + ·)⟩
instance : Sub (Line V) := ⟨bin (· - ·)⟩
instance : Mul (Line V) := ⟨bin (· * ·)⟩
instance : Div (Line V) := ⟨bin (· / ·)⟩

/-- `line + c` (linesops.py:45) -/
def addS (a : Line V) (c : V) : Line V := binS (· + ·) a c
/-- `c + line` (`__radd__`) (linesops.py:45) -/
def raddS (c : V) (a : Line V) : Line V := binS (fun x c => c + x) a c
/-- `line - c` (linesops.py:51) -/
def subS (a : Line V) (c : V) : Line V := binS (· - ·) a c
/-- `c - line` (`__rsub__`) (linesops.py:51) -/
def rsubS (c : V) (a : Line V) : Line V := binS (fun x c => c - x) a c
/-- `line * c` (linesops.py:49) -/
def mulS (a : Line V) (c : V) : Line V := binS (· * ·) a c
/-- `c * line` (`__rmul__`) (linesops.py:49) -/
def rmulS (c : V) (a : Line V) : Line V := binS (fun x c => c * x) a c
/-- `line / c` (linesops.py:52) -/
def divS (a : Line V) (c : V) : Line V := binS (· / ·) a c
/-- `c / line` (`__rtruediv__`) (linesops.py:52) -/
def rdivS (c : V) (a : Line V) : Line V := binS (fun x c => c / x) a c

/-- `line < other` (linesops.py:39) -/
def ltL (a b : Line V) : Line Bool := cmp (fun x y => lt x y) a b
/-- `line > other` (linesops.py:41) -/
def gtL (a b : Line V) : Line Bool := cmp (fun x y => lt y x) a b
/-- `line < c` (linesops.py:39) -/
def ltS (a : Line V) (c : V) : Line Bool := cmpS (fun x y => lt x y) a c
/-- `line > c` (linesops.py:41) -/
def gtS (a : Line V) (c : V) : Line Bool := cmpS (fun x y => lt y x) a c
/-- `line & other` on boolean lines (linesops.py:55) -/
def andL (a b : Line Bool) : Line Bool := binop (fun x y => x && y) true a b
/-- `line * boolline` (linesops.py:49, e.g. directionalmove.py:96) -/
def mulB (a : Line V) (b : Line Bool) : Line V := binop (fun x y => x * ofBool y) nan a b
/-- `c * boolline` (`__rmul__` with a float) (linesops.py:49) -/
def rmulSB (c : V) (a : Line Bool) : Line V := binopS (fun x c => c * ofBool x) nan a c
/-- `boolline - boolline`: numpy refuses to subtract booleans ("numpy boolean subtract, the `-` operator, is not
supported"), whatever the data. (linesops.py:51, crossover.py:106-107) -/
def subBB (_a _b : Line Bool) : Except Err (Line V) := .error .typeError

/-- `line.shift(periods=k)` (`standard_op` with `parg='periods'`, linesops.py:67) -/
def shift (k : Int) (a : Line V) : Line V := stdop (shiftL k) nan k a

/-- `Line.__call__(ago)` (lines.py:477-488): `shift(periods=-ago)`, but for `ago = 0` a line filled with the default
`val` (NaN) and the same minimum period -/
def ago (k : Int) (a : Line V) : Line V :=
  if k = 0 then clone a (List.replicate a.series.length nan) 0 else shift (-k) a

/-- `line.diff(periods=k)` (linesops.py:66) -/
def diff (k : Nat) (a : Line V) : Line V := stdop (diffL k) nan k a

/-- `line.pct_change(periods=k)` (linesops.py:68) -/
def pctChange (k : Nat) (a : Line V) : Line V := stdop (pctChangeL k) nan k a

/-- element-wise `standard_op` (lines.py:137-162) -/
def mapOp (f : V → V) (a : Line V) : Line V := stdop (List.map f) nan 0 a

/-- `line.abs()` (linesops.py:71) -/
def abs (a : Line V) : Line V := mapOp absv a

/-- `line.clip(lower=c)` (linesops.py:77; a NaN bound, which pandas ignores, is not modelled) -/
def clipLoS (a : Line V) (c : V) : Line V := mapOp (fun x => clipLo x c) a
/-- `line.clip(upper=c)` (linesops.py:77; a NaN bound is not modelled) -/
def clipHiS (a : Line V) (c : V) : Line V := mapOp (fun x => clipHi x c) a
/-- `line.clip(lower=otherline)` (linesops.py:77) -/
def clipLoL (a b : Line V) : Line V := stdop2 (List.zipWith clipLo) nan a b
/-- `line.clip(upper=otherline)` (linesops.py:77) -/
def clipHiL (a b : Line V) : Line V := stdop2 (List.zipWith clipHi) nan a b

/-- `line.cumsum()` (linesops.py:85) -/
def cumsum (a : Line V) : Line V := stdop cumsumL nan 0 a

/-- `line.rolling(window=w).<agg>()` on a fresh window object: constructor (lines.py:210-308, branch 303-306)
plus one attribute access (359-383).  The minimum period grows by `w - 1` (362) and is at least 1 (365, `_alpha_p = 1`). -/
def rolling (w : Nat) (agg : List α → V) (a : Line α) : Line V :=
  let minidx := a.minperiod - 1
  let mp := max (a.minperiod + w - 1) 1
  clone a (setFrom a.series.length nan minidx (rollL w agg (pyFrom a.series minidx))) mp

/-- `line.rolling(window=w).<agg>(other)` (e.g. `corr`): the other line is capped at the index of the first
(lines.py:372-377); its minimum period is not looked at. -/
def rolling2 (w : Nat) (agg : List (V × V) → V) (a b : Line V) : Line V :=
  let minidx := a.minperiod - 1
  let mp := max (a.minperiod + w - 1) 1
  clone a (setFrom a.series.length nan minidx
    (rollL w agg (List.zip (pyFrom a.series minidx) (pyFrom b.series minidx)))) mp

/-- `line._period(inc, rolling, val)` (lines.py:518-532) with `inc = period - rolling`. -/
def period (inc : Int) (val : Option V) (a : Line V) : Line V :=
  if inc = 0 then a
  else
    let series := match val with
      | none => a.series
      | some v =>
        let idx0 := a.minperiod - 1
        let idx1 := idx0 + inc
        if idx1 < idx0 then pyFill a.series idx1 idx0 v else pyFill a.series idx0 idx1 v
    ⟨series, a.minperiod + inc⟩

/-- `line._setval(i0, i1, val)` (lines.py:534-544). -/
def setval (i0 i1 : Int) (val : V) (a : Line V) : Line V :=
  if i0 = 0 ∧ i1 = 0 then ⟨pyFill a.series (a.minperiod - 1) i1 val, a.minperiod⟩
  else
    let j0 := a.minperiod - 1 + i0
    let j1 := if 0 ≤ i1 then j0 + (if i1 = 0 then 1 else i1) else i1
    ⟨pyFill a.series j0 j1 val, a.minperiod⟩

/-- Seeds for `_ewm` (btalib/utils.py: SEED_AVG ... SEED_ZFILL). (utils.py:16-21) -/
inductive Seed where
  | avg | last | sum | none | zero | zfill
deriving DecidableEq, Repr

/-- State of a `_MultiFunc_Op` created by `_ewm` (lines.py:253-302): first index of the result and the data
(seed followed by the remaining values) handed over to pandas. -/
structure EwmObj (V : Type) where
  /-- `_minidx` -/
  minidx : Int
  /-- `trailer` -/
  trailer : List V

/-- Parameters of `_ewm`: `pval` is the period (`span`, or `com + 1`, or 0 with `alpha` only; lines.py:226-246). -/
structure EwmCfg where
  pval : Int
  /-- `_poffset` -/
  poffset : Int := 0
  /-- `_pearly` -/
  pearly : Int := 0
  /-- `_seed` -/
  seed : Seed := .avg
  /-- `_alpha_p`: minimum period of a dynamic alpha, else 1 -/
  alphaP : Int := 1

/-- the seed end `p2` (lines.py:266-278) -/
def EwmCfg.p2 (c : EwmCfg) (minperiod : Int) : Int :=
  let poffset := if c.poffset ≠ 0 then c.poffset else c.pval
  let poffset := if c.pval ≠ 0 ∧ poffset < c.alphaP then poffset + (c.alphaP - poffset - 1) else poffset
  minperiod - 1 + poffset - c.pearly

/-- `trailprefix` (lines.py:286-299).  Storing at position -1 of an empty series (the input is too short) is an
IndexError; so is reading `series[pidx]` out of range. -/
def ewmPrefix (a : Line V) (seed : Seed) (p1 pidx p2 : Int) : Except Err (List V) :=
  let s := a.series
  let trailprefix : List V := List.replicate (pyStart s.length p2 - pyStart s.length pidx) nan
  let setLast (v : V) : Except Err (List V) :=
    if trailprefix.isEmpty then .error .indexError else .ok (trailprefix.dropLast ++ [v])
  match seed with
  | .avg => setLast (meanSkipNa (pySlice s p1 p2))
  | .last => match pyGet s pidx with
    | some v => setLast v
    | none => .error .indexError
  | .sum => setLast (sumSkipNa (pySlice s p1 p2))
  | .none => .ok trailprefix
  | .zero => setLast (lit 0)
  | .zfill => .ok (List.replicate trailprefix.length (lit 0))

/-- constructor of the `_ewm` object (lines.py:253-302). -/
def ewmNew (c : EwmCfg) (a : Line V) : Except Err (EwmObj V) :=
  let p2 := c.p2 a.minperiod
  let p1 := p2 - c.pval
  let pidx := p2 - 1
  match ewmPrefix a c.seed p1 pidx p2 with
  | .error e => .error e
  | .ok prefix_ => .ok ⟨pidx, prefix_ ++ pyFrom a.series p2⟩

/-- first attribute access on the `_ewm` object and call of the operation (lines.py:359-383); `op` is the pandas
operation on the trailer.  An operation result which does not fit the slice assigned to is a ValueError. -/
def ewmCall (c : EwmCfg) (a : Line V) (o : EwmObj V) (op : List V → Except Err (List V)) : Except Err (Line V) :=
  let mp := max (a.minperiod + (c.pval - c.pearly - 1)) c.alphaP
  match op o.trailer with
  | .error e => .error e
  | .ok r =>
    if r.length = a.series.length - pyStart a.series.length o.minidx then
      .ok (clone a (setFrom a.series.length nan o.minidx r) mp)
    else .error .valueError

/-- `line._ewm(...).mean()` with a fixed alpha (lines.py:253-308, 359-383) -/
def ewmMean (c : EwmCfg) (alpha : V) (a : Line V) : Except Err (Line V) :=
  match ewmNew c a with
  | .error e => .error e
  | .ok o => ewmCall c a o fun t => .ok (ewmL alpha t)

/-- loop of `_sm_acc` (lines.py:315-320) after the first value -/
def smAccGo (alpha beta prev : V) : List V → List V
  | [] => []
  | x :: xs => (beta * prev + alpha * x) :: smAccGo alpha beta (beta * prev + alpha * x) xs

/-- `_mean_exp` with given (non zero) beta (lines.py:310-322); `x[0]` fails on empty data -/
def smAcc (alpha beta : V) : List V → Except Err (List V)
  | [] => .error .indexError
  | x :: xs => .ok (x :: smAccGo alpha beta x xs)

/-- `scipy.signal.lfilter([alpha], [1.0, -beta], x)`: `y[n] = alpha x[n] + beta y[n-1]`, `y[-1] = 0` (called in lines.py:341) -/
def lfilterGo (alpha beta y : V) : List V → List V
  | [] => []
  | x :: xs => (alpha * x + beta * y) :: lfilterGo alpha beta (alpha * x + beta * y) xs

/-- `_sp_lfilter` (lines.py:334-341): the first value is divided by alpha, then filtered -/
def spLfilter (alpha beta : V) : List V → Except Err (List V)
  | [] => .error .indexError
  | x :: xs => .ok (lfilterGo alpha beta (lit 0) (x / alpha :: xs))

/-- `if not beta: beta = 1.0 - alpha` (lines.py:312-313, 331-332); `none` is the default `None` -/
def betaOf (alpha : V) (beta : Option V) : V :=
  match beta with
  | none => lit 1 - alpha
  | some b => if eqv b (lit 0) then lit 1 - alpha else b

/-- `_lfilter(alpha, beta)` (lines.py:324-343): with scipy, or else the python loop -/
def lfilter (scipy : Bool) (alpha : V) (beta : Option V) (t : List V) : Except Err (List V) :=
  if scipy then spLfilter alpha (betaOf alpha beta) t else smAcc alpha (betaOf alpha beta) t

/-- `line._ewm(...)._lfilter(alpha, beta)` (lines.py:324-343) -/
def ewmLfilter (scipy : Bool) (c : EwmCfg) (alpha : V) (beta : Option V) (a : Line V) : Except Err (Line V) :=
  match ewmNew c a with
  | .error e => .error e
  | .ok o => ewmCall c a o fun t => lfilter scipy alpha beta (prepL t)

/-- loop of `_dynalpha` (lines.py:352-353): one step per alpha; more alphas than values is an IndexError, values
beyond the alphas stay as they are -/
def dynGo (prev : V) : List V → List V → Except Err (List V)
  | vals, [] => .ok vals
  | [], _ :: _ => .error .indexError
  | v :: vals, al :: alphas =>
    let cur := prev + al * (v - prev)
    match dynGo cur vals alphas with
    | .error e => .error e
    | .ok r => .ok (cur :: r)

/-- `_dynalpha` (lines.py:346-355) -/
def dynAlpha (alphas : List V) : List V → Except Err (List V)
  | [] => .error .indexError
  | seed :: vals => match dynGo seed vals alphas with
    | .error e => .error e
    | .ok r => .ok (nan :: r)

/-- `line._ewm(alpha=alphaline, ...)._mean()` (lines.py:345-357) -/
def ewmDyn (c : EwmCfg) (alpha : Line V) (a : Line V) : Except Err (Line V) :=
  let c := { c with alphaP := alpha.minperiod }
  match ewmNew c a with
  | .error e => .error e
  | .ok o => ewmCall c a o fun t => dynAlpha (pyFrom alpha.series (alpha.minperiod - 1)) (prepL t)

end Line

end Bta
