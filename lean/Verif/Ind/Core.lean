import Verif.Holder

/-!
# Indicators (`btalib/indicators/*.py`), part 1

Each definition is the calculation of the indicator's `__init__` (of all the classes in its chain, base first) on the
lines which were bound as inputs; parameters are arguments.  Periods are natural numbers; values at least 1 are meant
wherever pandas asks for it.  Binding of inputs and parameters is modelled in `Verif/Meta`.  Instances with one output
take part in an operation like their output (`C06_single_output_partial`), hence are represented by that line.
-/

set_option linter.unusedSectionVars false

namespace Bta
open Line

variable {V : Type} [PyFloat V]

/-- A moving average as indicators with a parameter `_ma` use it: `_ma(line, period=p)`. (e.g. rsi.py:45, macd.py:40) -/
abbrev MA (V : Type) := Nat → Line V → Except Err (Line V)

namespace Ind

/-! ## mathop.py -/

/-- `add` (mathop.py:28-29) -/
def add (a b : Line V) : Line V := a + b
/-- `div` (mathop.py:44-45) -/
def div (a b : Line V) : Line V := a / b
/-- `mult` (mathop.py:60-61) -/
def mult (a b : Line V) : Line V := a * b
/-- `sub` (mathop.py:76-77) -/
def sub (a b : Line V) : Line V := a - b
/-- `max`, alias `highest` (mathop.py:96-97) -/
def highest (p : Nat) (a : Line V) : Line V := rolling p aggMax a
/-- `min`, alias `lowest` (mathop.py:114-115) -/
def lowest (p : Nat) (a : Line V) : Line V := rolling p aggMin a
/-- `minmax` (mathop.py:133-135): outputs min, max -/
def minmax (p : Nat) (a : Line V) : Line V × Line V := (lowest p a, highest p a)
/-- `sum`, alias `SumN`, `sumn` (mathop.py:253-254) -/
def sumN (p : Nat) (a : Line V) : Line V := rolling p aggSum a

/-- `maxindex` without `_absidx` (mathop.py:156-160) -/
def maxindex (p : Nat) (a : Line V) : Line V := rolling p (aggApply fun w => lit (argmaxV w)) a
/-- `minindex` without `_absidx` (mathop.py:192-196) -/
def minindex (p : Nat) (a : Line V) : Line V := rolling p (aggApply fun w => lit (argminV w)) a

/-- `rolling(window=p).apply(self._argmax)` (mathop.py:153-154, 162-164; 189-190, 198-200): the counter (`c`) only
advances when the function is called, i.e. for windows without missing values.  `i` is the position. -/
def absIdxGo (p : Nat) (arg : List V → Nat) (xs : List V) : Nat → Nat → Nat → List V
  | 0, _, _ => []
  | k + 1, i, c =>
    if i + 1 < p then nan :: absIdxGo p arg xs k (i + 1) c
    else if (window p i xs).all isFin then
      lit ((arg (window p i xs) + c : Nat) : ℚ) :: absIdxGo p arg xs k (i + 1) (c + 1)
    else nan :: absIdxGo p arg xs k (i + 1) c

/-- `maxindex`/`minindex` with `_absidx` (mathop.py:161-165, 197-201): `fillna(0)` on the raw series, which becomes a line
with minimum period 1. -/
def absIndex (p : Nat) (arg : List V → Nat) (a : Line V) : Line V :=
  let minidx := a.minperiod - 1
  let t := pyFrom a.series minidx
  let r := setFrom a.series.length nan minidx (absIdxGo p arg t t.length 0 0)
  ofSeries (r.map fun x => if isNaN x then lit 0 else x)

/-- `maxindex(_absidx=True)` (mathop.py:161-165) -/
def maxindexAbs (p : Nat) (a : Line V) : Line V := absIndex p argmaxV a
/-- `minindex(_absidx=True)` (mathop.py:197-201) -/
def minindexAbs (p : Nat) (a : Line V) : Line V := absIndex p argminV a

/-- `minmaxindex` (mathop.py:225-228): outputs minindex, maxindex; `abs` is `_absidx`, handed on with the other
parameters -/
def minmaxindex (abs : Bool) (p : Nat) (a : Line V) : Line V × Line V :=
  if abs then (minindexAbs p a, maxindexAbs p a) else (minindex p a, maxindex p a)

/-! ## price.py -/

/-- `avgprice` (price.py:28-30) -/
def avgprice (divisor : V) (o h l c : Line V) : Line V := (o + h + l + c).divS divisor
/-- `typprice` (price.py:51-52) -/
def typprice (divisor : V) (h l c : Line V) : Line V := (h + l + c).divS divisor
/-- `wclprice` (price.py:75-77) -/
def wclprice (weight divisor : V) (h l c : Line V) : Line V := (h + l + c.mulS weight).divS divisor
/-- `medprice` (price.py:99-100) -/
def medprice (divisor : V) (h l : Line V) : Line V := (h + l).divS divisor

/-! ## moving averages -/

/-- `sma` (sma.py:27-28) -/
def sma : MA V := fun p a => .ok (rolling p aggMean a)

/-- `ema` (ema.py:37-39) -/
def emaG (seed : Seed) (poffset : Nat) : MA V := fun p a =>
  ewmMean { pval := p, poffset := poffset, seed := seed } (alphaOfCom (comOfSpan (lit p))) a

/-- `ema` with default seed and without offset (ema.py:37-39) -/
def ema : MA V := emaG .avg 0

/-- `smma` (smma.py:39-41): `com = period - 1` -/
def smmaG (seed : Seed) : MA V := fun p a =>
  ewmMean { pval := p, seed := seed } (alphaOfCom (lit ((p : ℚ) - 1))) a

/-- `smma` with the default seed (smma.py:39-41) -/
def smma : MA V := smmaG .avg

/-- `ewma` (ewma.py:33-35): plain `ewm` (lines.py:226-246, 303-308, 359-383): values from the first bar of the input on,
minimum period as in `ema`. -/
def ewmaG (adjust : Bool) : MA V := fun p a =>
  .ok (clone a (setFrom a.series.length nan (a.minperiod - 1)
    (ewmMeanL adjust (alphaOfCom (comOfSpan (lit p))) (pyFrom a.series (a.minperiod - 1)))) (max (a.minperiod + p - 1) 1))

/-- `ewma` with the default `adjust=False` (ewma.py:33-35, 29) -/
def ewma : MA V := ewmaG false

/-- weights `1 .. p` (wma.py:36) -/
def wmaWeights (p : Nat) : List V := (List.range p).map fun j => lit ((j + 1 : Nat) : ℚ)

/-- `wma` (wma.py:33-40); the parameter `coef` is not used by the code -/
def wma : MA V := fun p a =>
  let coef : V := lit 2 / lit ((p * (p + 1) : Nat) : ℚ)
  .ok (rmulS coef (rolling p (aggApply fun w => dotV w (wmaWeights p)) a))

/-- `dema` (dema.py:32-35) -/
def dema (ma : MA V) : MA V := fun p a => do
  let ema1 ← ma p a
  let ema2 ← ma p ema1
  return rmulS (lit 2) ema1 - ema2

/-- `tema` (tema.py:35-39) -/
def tema (ma : MA V) : MA V := fun p a => do
  let ema1 ← ma p a
  let ema2 ← ma p ema1
  let ema3 ← ma p ema2
  return rmulS (lit 3) ema1 - rmulS (lit 3) ema2 + ema3

/-- `trima` (trima.py:32-39): always `sma`, the parameter `_ma` is not used -/
def trima : MA V := fun p a => do
  let (p1, p2) := if p % 2 = 1 then ((p + 1) / 2, (p + 1) / 2) else (p / 2 + 1, p / 2)
  sma p1 (← sma p2 a)

/-- `trix` (trix.py:39-43) -/
def trix (ma : MA V) : MA V := fun p a => do
  let ema1 ← ma p a
  let ema2 ← ma p ema1
  let ema3 ← ma p ema2
  return rmulS (lit 100) ((ema3 / ago (-1) ema3).subS (lit 1))

/-- `gdema` (t3.py:30-34) -/
def gdema (ma : MA V) (vfactor : V) : MA V := fun p a => do
  let ema1 ← ma p a
  let ema2 ← ma p ema1
  return rmulS (lit 1 + vfactor) ema1 - rmulS vfactor ema2

/-- `t3` with `_gd=False` (t3.py:78-90): always `ema`, the parameter `_ma` is not used -/
def t3 (v : V) : MA V := fun p a => do
  let a2 := v * v
  let a3 := v * v * v
  let c1 := -a3
  let c2 := lit 3 * a2 + lit 3 * a3
  let c3 := lit (-6) * a2 - lit 3 * v - lit 3 * a3
  let c4 := lit 1 + lit 3 * v + a3 + lit 3 * a2
  let ema1 ← ema p a
  let ema2 ← ema p ema1
  let ema3 ← ema p ema2
  let ema4 ← ema p ema3
  let ema5 ← ema p ema4
  let ema6 ← ema p ema5
  return rmulS c1 ema6 + rmulS c2 ema5 + rmulS c3 ema4 + rmulS c4 ema3

/-- `t3` with `_gd=True` (t3.py:73-75) -/
def t3gd (ma : MA V) (v : V) : MA V := fun p a => do
  gdema ma v p (← gdema ma v p (← gdema ma v p a))

/-- `kama` (kama.py:68-85); `pvol` is the parameter `_pvol` -/
def kama (fast slow : V) (pvol : Nat) (seed : Seed) : MA V := fun p a =>
  let direction := diff p a
  let volatility := sumN p (diff pvol a).abs
  let effratio := (direction / volatility).abs
  let scfast := lit 2 / (fast + lit 1)
  let scslow := lit 2 / (slow + lit 1)
  let sc := mapOp (fun x => x * x) ((effratio.mulS (scfast - scslow)).addS scslow)
  ewmDyn { pval := p, seed := seed } sc a

/-! ## oscillators built on moving averages -/

/-- `macd` (macd.py:39-47): outputs macd, signal, histogram.  `mafast` is `_ma` with the keyword arguments of ta-lib
compatibility (`poffset`) if requested, else the same as `ma`. -/
def macd (mafast ma masig : MA V) (pfast pslow psignal : Nat) (a : Line V) :
    Except Err (Line V × Line V × Line V) := do
  let ma1 ← mafast pfast a
  let ma2 ← ma pslow a
  let macd := ma1 - ma2
  let signal ← masig psignal macd
  return (macd, signal, macd - signal)

/-- `_posc` (ppo.py:21-25): the two averages, swapped if `fast` -/
def posc (fast : Bool) (ma : MA V) (pfast pslow : Nat) (a : Line V) : Except Err (Line V × Line V) := do
  let ma1 ← ma pfast a
  let ma2 ← ma pslow a
  return if fast then (ma2, ma1) else (ma1, ma2)

/-- `apo` (ppo.py:48-49) -/
def apo (ma : MA V) (pfast pslow : Nat) (a : Line V) : Except Err (Line V) := do
  let (ma1, ma2) ← posc false ma pfast pslow a
  return ma1 - ma2

/-- `ppo` (ppo.py:76-80) and, with `fast`, `ppofast` (ppo.py:112-118) -/
def ppo (fast : Bool) (ma masig : MA V) (pfast pslow psignal : Nat) (a : Line V) :
    Except Err (Line V × Line V × Line V) := do
  let (ma1, ma2) ← posc fast ma pfast pslow a
  let ppo := rmulS (lit 100) ((ma1 / ma2).subS (lit 1))
  let signal ← masig psignal ppo
  return (ppo, signal, ppo - signal)

/-- `mom` (mom.py:30-31) -/
def mom (p : Nat) (a : Line V) : Line V := diff p a

/-- `_rocbase` (roc.py:17-18) and `rocr` (roc.py:63-76) -/
def rocr (p : Nat) (a : Line V) : Line V := a / ago (-(p : Int)) a
/-- `roc` (roc.py:40-41) -/
def roc (p : Nat) (a : Line V) : Line V := rmulS (lit 100) ((rocr p a).subS (lit 1))
/-- `rocp` (roc.py:59-60) -/
def rocp (p : Nat) (a : Line V) : Line V := (rocr p a).subS (lit 1)
/-- `rocr100` (roc.py:94-95) -/
def rocr100 (p : Nat) (a : Line V) : Line V := rmulS (lit 100) (rocr p a)

/-- `rsi` (rsi.py:42-48) -/
def rsi (ma : MA V) (lookback p : Nat) (a : Line V) : Except Err (Line V) := do
  let upday := (diff lookback a).clipLoS (lit 0)
  let downday := ((diff lookback a).clipHiS (lit 0)).abs
  let maup ← ma p upday
  let madown ← ma p downday
  let rs := maup / madown
  return rsubS (lit 100) (rdivS (lit 100) (raddS (lit 1) rs))

/-- `SumN` as a parameter of `cmo` (cmo.py:32-36, mathop.py:253-254) -/
def sumNMA : MA V := fun p a => .ok (sumN p a)

/-- `cmo` (cmo.py:32-36); `sum` is the parameter `_sum` (`SumN`, or `smma` with ta-lib compatibility) -/
def cmo (sum : MA V) (p : Nat) (a : Line V) : Except Err (Line V) := do
  let cdiff := diff 1 a
  let updays ← sum p (cdiff.clipLoS (lit 0))
  let dodays ← sum p (cdiff.clipHiS (lit 0)).abs
  return (rmulS (lit 100) (updays - dodays)) / (updays + dodays)

/-- `mad._mad` (madev.py:27) on one window -/
def madV (w : List V) : V :=
  let m := sumV w / lit w.length
  sumV (w.map fun x => absv (x - m)) / lit w.length

/-- `mad` (madev.py:29-31); the parameter `_ma` is not used by the code -/
def mad (p : Nat) (a : Line V) : Line V := rolling p (aggApply madV) a

/-- `cci` (cci.py:37-41); the parameter `_dev` is not used by the code -/
def cci (ma : MA V) (factor : V) (p : Nat) (h l c : Line V) : Except Err (Line V) := do
  let tp := (h + l + c).divS (lit 3)
  let tpmean ← ma p tp
  let madev := mad p tp
  return (tp - tpmean) / madev.mulS factor

/-- `var` (var.py:26-28), `var_s` with `ddof = 1` -/
def var (ddof p : Nat) (a : Line V) : Line V := rolling p (aggVar ddof) a

/-- `stddev` (stddev.py:26-28), `stddev_s` with `ddof = 1`: square root of the variance (pandas `std`) -/
def stddev (sq : V → V) (ddof p : Nat) (a : Line V) : Line V := rolling p (fun w => sq (aggVar ddof w)) a

/-- `bbands` (bbands.py:33-38): outputs mid, top, bot; the parameter `_stdev` is not used by the code -/
def bbands (sq : V → V) (ma : MA V) (devs : V) (p : Nat) (a : Line V) : Except Err (Line V × Line V × Line V) := do
  let mid ← ma p a
  let devdist := rmulS devs (stddev sq 0 p a)
  return (mid, mid + devdist, mid - devdist)

/-- `stochf` (stochastic.py:41-45): outputs k, d -/
def stochf (ma : MA V) (p pfast : Nat) (h l c : Line V) : Except Err (Line V × Line V) := do
  let hh := highest p h
  let ll := lowest p l
  let k := (rmulS (lit 100) (c - ll)) / (hh - ll)
  let d ← ma pfast k
  return (k, d)

/-- `stochastic` (stochastic.py:80-83 after stochf): outputs k, d -/
def stochastic (ma maslow : MA V) (p pfast pslow : Nat) (h l c : Line V) : Except Err (Line V × Line V) := do
  let (_, k) ← stochf ma p pfast h l c
  let d ← maslow pslow k
  return (k, d)

/-- `williamsr` (williamsr.py:34-37) -/
def williamsr (p : Nat) (h l c : Line V) : Line V :=
  let hh := highest p h
  let ll := lowest p l
  (rmulS (lit (-100)) (hh - c)) / (hh - ll)

/-- `stochrsi` (stochrsi.py:42-48) without the second output of ta-lib compatibility -/
def stochrsi (p philo : Nat) (scale : V) (a : Line V) : Except Err (Line V) := do
  let r ← rsi smma 1 p a
  let maxrsi := highest philo r
  let minrsi := lowest philo r
  return ((r - minrsi) / (maxrsi - minrsi)).mulS scale

/-- `stochrsi` with the second output `d` (stochrsi.py:50-51) -/
def stochrsiD (ma : MA V) (p philo pfast : Nat) (scale : V) (a : Line V) : Except Err (Line V × Line V) := do
  let k ← stochrsi p philo scale a
  let d ← ma pfast k
  return (k, d)

/-- `midprice` (midpoint.py:28-31) -/
def midprice (p : Nat) (h l : Line V) : Line V := (highest p h + lowest p l).divS (lit 2)
/-- `midpoint` (midpoint.py:51-52) -/
def midpoint (p : Nat) (a : Line V) : Line V := midprice p a a

/-- `bop` (bop.py:31-32) -/
def bop (o h l c : Line V) : Line V := (c - o) / (h - l)

/-! ## atr.py, ultimateoscillator.py -/

/-- `truelow` (atr.py:58-59) -/
def truelow (q : Nat) (l c : Line V) : Line V := clipHiL (ago (-(q : Int)) c) l

/-- `truerange` (atr.py:88-92) -/
def truerange (q : Nat) (h l c : Line V) : Line V :=
  let close1 := ago (-(q : Int)) c
  let truehi := clipLoL close1 h
  let truelo := clipHiL close1 l
  truehi - truelo

/-- `atr` (atr.py:118-119 after truerange) -/
def atr (ma : MA V) (q p : Nat) (h l c : Line V) : Except Err (Line V) := ma p (truerange q h l c)

/-- `natr` (atr.py:137-138 after atr) -/
def natr (ma : MA V) (q p : Nat) (h l c : Line V) : Except Err (Line V) := do
  let r ← atr ma q p h l c
  return (rmulS (lit 100) r) / c

/-- `ultimateoscillator` (ultimateoscillator.py:41-54) -/
def ultosc (p1 p2 p3 : Nat) (f1 f2 f3 : V) (h l c : Line V) : Line V :=
  let bp := c - truelow 1 l c
  let tr := truerange 1 h l c
  let av1 := sumN p1 bp / sumN p1 tr
  let av2 := sumN p2 bp / sumN p2 tr
  let av3 := sumN p3 bp / sumN p3 tr
  let factor := lit 100 / (f1 + f2 + f3)
  rmulS (f1 * factor) av1 + rmulS (f2 * factor) av2 + rmulS (f3 * factor) av3

/-! ## volume -/

/-- `mfi` (mfi.py:39-44) -/
def mfi (p : Nat) (h l c v : Line V) : Line V :=
  let tprice := (h + l + c).divS (lit 3)
  let mfraw := tprice * v
  let flowpos := sumN p (mulB mfraw (gtL tprice (ago (-1) tprice)))
  let flowneg := sumN p (mulB mfraw (ltL tprice (ago (-1) tprice)))
  rsubS (lit 100) (rdivS (lit 100) (raddS (lit 1) (flowpos / flowneg)))

/-- `obv` (obv.py:42-49); `talib` is `_talib_` -/
def obv (talib : Bool) (q : Nat) (c v : Line V) : Line V :=
  let close1 := diff q c
  let close1 := if talib then period (-1) (some (lit 1)) close1 else close1
  (v * mapOp signV close1).cumsum

/-- `ad` (ad.py:32-37) -/
def ad (h l c v : Line V) : Line V :=
  let hilo := h - l
  let mfm := (rmulS (lit 2) c - h - l) / hilo
  let mfv := mfm * v
  mfv.cumsum

/-- `adosc` (ad.py:60-63 after ad) -/
def adosc (ma : MA V) (pfast pslow : Nat) (h l c v : Line V) : Except Err (Line V) := do
  let x := ad h l c v
  let ma3 ← ma pfast x
  let ma10 ← ma pslow x
  return ma3 - ma10

/-! ## aroon.py -/

/-- one component of `_aroon` (aroon.py:35-36, 38-39) -/
def aroonComp (arg : List V → Nat) (p : Nat) (a : Line V) : Line V :=
  let idx := rolling (p + 1) (aggApply fun w => lit (arg w.reverse)) a
  rsubS (lit 100) ((rmulS (lit 100) idx).divS (lit p))

/-- `_aup` (aroon.py:35-36) -/
def aroonUp (p : Nat) (h : Line V) : Line V := aroonComp argmaxV p h
/-- `_adn` (aroon.py:38-39) -/
def aroonDn (p : Nat) (l : Line V) : Line V := aroonComp argminV p l
/-- `aroon` (aroon.py:68-70): outputs aroondn, aroonup -/
def aroon (p : Nat) (h l : Line V) : Line V × Line V := (aroonDn p l, aroonUp p h)
/-- `aroonosc` (aroon.py:89-90) -/
def aroonosc (p : Nat) (h l : Line V) : Line V := aroonUp p h - aroonDn p l

/-! ## statistics -/

/-- `_linreg_base` (linreg.py:61-78): slope and intercept; `minus1` is `_pminus1` -/
def linregBase (minus1 : Bool) (p : Nat) (a : Line V) : Line V × Line V :=
  let d := if minus1 then 1 else 0
  let p0 := 1 - d
  let p1 := p - d
  let s_x : V := lit ((p1 * (p1 + 1) / 2 : ℚ))
  let s_y := sumN p a
  let s_xx : V := lit ((p1 * (p1 + 1) * (2 * p1 + 1) / 6 : ℚ))
  let pxdot : List V := (List.range p).map fun j => lit ((p0 + j : Nat) : ℚ)
  let s_xy := rolling p (aggApply fun w => dotV w pxdot) a
  let m := (rmulS (lit p) s_xy - rmulS s_x s_y).divS (lit p * s_xx - s_x * s_x)
  let b := (s_y - m.mulS s_x).divS (lit p)
  (m, b)

/-- `linearreg_slope` (linreg.py:99-100) -/
def linregSlope (p : Nat) (a : Line V) : Line V := (linregBase false p a).1
/-- `linearreg_angle` (linreg.py:121-122); `deg` is `x ↦ atan x * (180/π)`: `atan(line)` is `line.apply(np.arctan)`
(math.py:22-23), followed by a multiplication with a scalar -/
def linregAngle (atan : V → V) (rad2deg : V) (p : Nat) (a : Line V) : Line V :=
  (mapOp atan (linregBase false p a).1).mulS rad2deg
/-- `linearreg_intercept` (linreg.py:145-146); `talib` sets `_pminus1` (166) -/
def linregIntercept (talib : Bool) (p : Nat) (a : Line V) : Line V := (linregBase talib p a).2
/-- `linearreg` (linreg.py:190-191), `_pminus1 = True` (187) -/
def linreg (p : Nat) (a : Line V) : Line V :=
  (linregBase true p a).2 + (linregBase true p a).1.mulS (lit ((p : ℚ) - 1))
/-- `tsf` (linreg.py:235-236), `_pminus1 = True` (232) -/
def tsf (p : Nat) (a : Line V) : Line V := (linregBase true p a).2 + (linregBase true p a).1.mulS (lit p)

/-- `beta` (beta.py:38-53) -/
def beta (rets : Bool) (prets p : Nat) (asset market : Line V) : Line V :=
  let x := if rets then pctChange prets asset else asset
  let y := if rets then pctChange prets market else market
  let s_x := sumN p x
  let s_y := sumN p y
  let s_xx := sumN p (mapOp (fun v => v * v) x)
  let s_xy := sumN p (x * y)
  (rmulS (lit p) s_xy - s_x * s_y) / (rmulS (lit p) s_xx - mapOp (fun v => v * v) s_x)

/-- `correl` (correl.py:30-31); the parameters `_prets` and `_rets` are not used by the code -/
def correl (sq : V → V) (p : Nat) (a b : Line V) : Line V := rolling2 p (aggCorr sq) a b

/-! ## crossover.py -/

/-- `idiff` of `_crossbase` (crossover.py:29-34) -/
def crossDiff (strict : Bool) (a b : Line V) : Line V :=
  let idiff := shift 1 (a - b)
  if strict then idiff else stdop replaceZeroL nan 0 idiff

/-- `_cup` (crossover.py:36-37) -/
def cup (strict : Bool) (a b : Line V) : Line Bool := andL (ltS (crossDiff strict a b) (lit 0)) (gtL a b)
/-- `_cdown` (crossover.py:39-40) -/
def cdown (strict : Bool) (a b : Line V) : Line Bool := andL (gtS (crossDiff strict a b) (lit 0)) (ltL a b)
/-- `crossup` (crossover.py:60-61) -/
def crossup (strict : Bool) (a b : Line V) : Line V := rmulSB (lit 1) (cup strict a b)
/-- `crossdown` (crossover.py:81-82) -/
def crossdown (strict : Bool) (a b : Line V) : Line V := rmulSB (lit (-1)) (cdown strict a b)
/-- `crossover` (crossover.py:106-107) -/
def crossover (strict : Bool) (a b : Line V) : Except Err (Line V) := subBB (cup strict a b) (cdown strict a b)

/-! ## directionalmove.py -/

/-- `smacc` (directionalmove.py:49-52); `pearly` is `_pearly` (`True` counts as 1) -/
def smacc (scipy : Bool) (pearly : Bool) (seed : Seed) : MA V := fun p a =>
  ewmLfilter scipy { pval := p, pearly := if pearly then 1 else 0, seed := seed } (lit 1)
    (some (lit ((p : ℚ) - 1) / lit p)) a

/-- `upmove`, `downmove` of `_dm` (directionalmove.py:92-93) -/
def dmMoves (q : Nat) (h l : Line V) : Line V × Line V := (diff q h, ago (-(q : Int)) l - l)

/-- +DM of one bar (directionalmove.py:96) -/
def pdm1 (q : Nat) (h l : Line V) : Line V :=
  let (up, dn) := dmMoves q h l
  mulB (up.clipLoS (lit 0)) (gtL up dn)

/-- -DM of one bar (directionalmove.py:100) -/
def mdm1 (q : Nat) (h l : Line V) : Line V :=
  let (up, dn) := dmMoves q h l
  mulB (dn.clipLoS (lit 0)) (gtL dn up)

/-- `plus_dm` (directionalmove.py:95-97, 138-139); `smooth` is `_smoother` with its arguments (85-89) -/
def plusDm (smooth : Line V → Except Err (Line V)) (q : Nat) (h l : Line V) : Except Err (Line V) := smooth (pdm1 q h l)
/-- `minus_dm` (directionalmove.py:99-101, 172-173) -/
def minusDm (smooth : Line V → Except Err (Line V)) (q : Nat) (h l : Line V) : Except Err (Line V) := smooth (mdm1 q h l)
/-- `dm` (directionalmove.py:208-210): outputs plusdm, minusdm -/
def dm (smooth : Line V → Except Err (Line V)) (q : Nat) (h l : Line V) : Except Err (Line V × Line V) := do
  return (← plusDm smooth q h l, ← minusDm smooth q h l)

/-- `trp` of `_di` (directionalmove.py:251-254): an indicator instance whose minimum period was increased by `_period` -/
def diTrp (smooth : Line V → Except Err (Line V)) (q : Nat) (talib : Bool) (h l c : Line V) : Except Err (Holder V) := do
  let trp ← smooth (truerange q h l c)
  return (Holder.ofOutputs trp []).period (if talib then 1 else 0)

/-- `_pdi` (directionalmove.py:257) -/
def plusDi (smooth : Line V → Except Err (Line V)) (q : Nat) (talib : Bool) (h l c : Line V) : Except Err (Line V) := do
  let pdm ← plusDm smooth q h l
  let trp ← diTrp smooth q talib h l c
  return (rmulS (lit 100) pdm).op (· / ·) nan (.holder trp)

/-- `_mdi` (directionalmove.py:260) -/
def minusDi (smooth : Line V → Except Err (Line V)) (q : Nat) (talib : Bool) (h l c : Line V) : Except Err (Line V) := do
  let mdm ← minusDm smooth q h l
  let trp ← diTrp smooth q talib h l c
  return (rmulS (lit 100) mdm).op (· / ·) nan (.holder trp)

/-- `di` (directionalmove.py:362-364): outputs plusdi, minusdi -/
def di (smooth : Line V → Except Err (Line V)) (q : Nat) (talib : Bool) (h l c : Line V) :
    Except Err (Line V × Line V) := do
  return (← plusDi smooth q talib h l c, ← minusDi smooth q talib h l c)

/-- `dx` (directionalmove.py:399-400) -/
def dx (smooth : Line V → Except Err (Line V)) (q : Nat) (talib : Bool) (h l c : Line V) : Except Err (Line V) := do
  let pdi ← plusDi smooth q talib h l c
  let mdi ← minusDi smooth q talib h l c
  return (rmulS (lit 100) (pdi - mdi).abs) / (pdi + mdi)

/-- `adx` (directionalmove.py:436-437 after dx) -/
def adx (smooth : Line V → Except Err (Line V)) (ma : MA V) (q : Nat) (talib : Bool) (p : Nat) (h l c : Line V) :
    Except Err (Line V) := do
  ma p (← dx smooth q talib h l c)

/-- `adxr` (directionalmove.py:460-462 after adx); `prating` is `_prating` -/
def adxr (smooth : Line V → Except Err (Line V)) (ma : MA V) (q : Nat) (talib : Bool) (p : Nat) (prating : Option Nat)
    (h l c : Line V) : Except Err (Line V) := do
  let x ← adx smooth ma q talib p h l c
  let per : Int := (match prating with | none => (p : Int) | some 0 => p | some r => r) - (if talib then 1 else 0)
  return (x + ago (-per) x).divS (lit 2)

/-! ## sar.py -/

/-- loop variables of `_sarize` (sar.py:43-59): `hi`, `lo` are the values of the previous iteration -/
structure SarSt (V : Type) where
  trend : Bool
  sar : V
  ep : V
  af : V
  hi : V
  lo : V

/-- python's `max(a, b, c)` (used in sar.py:57-82) -/
def max3 (a b c : V) : V := maxV (maxV a b) c
/-- python's `min(a, b, c)` (used in sar.py:57-82) -/
def min3 (a b c : V) : V := minV (minV a b) c

/-- one iteration (sar.py:57-82): value annotated in `sarbuf[i]` and new loop variables -/
def sarStep (AF AFMAX : V) (s : SarSt V) (h l : V) : V × SarSt V :=
  if s.trend then
    if le l s.sar then
      (s.ep, ⟨false, max3 (s.ep + AF * (l - s.ep)) h s.hi, l, AF, h, l⟩)
    else
      let (ep, af) := if lt s.ep h then (h, minV (s.af + AF) AFMAX) else (s.ep, s.af)
      (s.sar, ⟨true, min3 (s.sar + af * (ep - s.sar)) l s.lo, ep, af, h, l⟩)
  else
    if le s.sar h then
      (s.ep, ⟨true, min3 (s.ep + AF * (h - s.ep)) l s.lo, h, AF, h, l⟩)
    else
      let (ep, af) := if lt l s.ep then (l, minV (s.af + AF) AFMAX) else (s.ep, s.af)
      (s.sar, ⟨false, max3 (s.sar + af * (ep - s.sar)) h s.hi, ep, af, h, l⟩)

/-- the loop over the remaining bars (sar.py:57-84) -/
def sarGo (AF AFMAX : V) (s : SarSt V) : List (V × V) → List V
  | [] => []
  | (h, l) :: xs => (sarStep AF AFMAX s h l).1 :: sarGo AF AFMAX (sarStep AF AFMAX s h l).2 xs

/-- values before the loop (sar.py:44-55), from the first two bars -/
def sarInit (AF hi1 lo1 hi lo : V) : SarSt V :=
  let upmove := hi - hi1
  let downmove := lo1 - lo
  let minusdm := maxV downmove (lit 0) * ofBool (lt upmove downmove)
  let trend := !lt (lit 0) minusdm
  if trend then ⟨true, lo1, hi, AF, hi, lo⟩ else ⟨false, hi1, lo, AF, hi, lo⟩

/-- `_sarize` (sar.py:42-84); `high[1]` is an IndexError for less than two bars -/
def sarize (AF AFMAX : V) : List (V × V) → Except Err (List V)
  | (hi1, lo1) :: (hi, lo) :: xs => .ok (nan :: sarGo AF AFMAX (sarInit AF hi1 lo1 hi lo) ((hi, lo) :: xs))
  | _ => .error .indexError

/-- `high._apply(self._sarize, low, sarbuf, raw=True)._period(1)` (sar.py:37-40, lines.py:577-587, 518-532) -/
def applySar (f : List (V × V) → Except Err (List V)) (h l : Line V) : Except Err (Line V) :=
  let mp := max h.minperiod l.minperiod
  let minidx := mp - 1
  match f (List.zip (pyFrom h.series minidx) (pyFrom l.series minidx)) with
  | .error e => .error e
  | .ok r => .ok (period 1 none (clone h (setFrom h.series.length nan minidx r) mp))

/-- `sar` (sar.py:37-40) -/
def sar (AF AFMAX : V) (h l : Line V) : Except Err (Line V) := applySar (sarize AF AFMAX) h l

/-! ## sarext.py -/

/-- parameters of `sarext` (sarext.py:36-43) -/
structure SarExtP (V : Type) where
  startval : V
  aflong : V
  afmaxlong : V
  afshort : V
  afmaxshort : V
  offset : V

/-- loop variables of `_sarize` (sarext.py) (sarext.py:51-75) -/
structure SarExtSt (V : Type) where
  trend : Bool
  sar : V
  ep : V
  aflong : V
  afshort : V
  hi : V
  lo : V

/-- one iteration (sarext.py:77-104) -/
def sarExtStep (P : SarExtP V) (s : SarExtSt V) (h l : V) : V × SarExtSt V :=
  if s.trend then
    if le l s.sar then
      let sar := s.ep + s.sar * P.offset
      (-sar, ⟨false, max3 (sar + P.afshort * (l - sar)) h s.hi, l, s.aflong, P.afshort, h, l⟩)
    else
      let (ep, af) := if lt s.ep h then (h, minV (s.aflong + P.aflong) P.afmaxlong) else (s.ep, s.aflong)
      (s.sar, ⟨true, min3 (s.sar + af * (ep - s.sar)) l s.lo, ep, af, s.afshort, h, l⟩)
  else
    if le s.sar h then
      let sar := s.ep - s.sar * P.offset
      (sar, ⟨true, min3 (sar + P.aflong * (h - sar)) l s.lo, h, P.aflong, s.afshort, h, l⟩)
    else
      let (ep, af) := if lt l s.ep then (l, minV (s.afshort + P.afshort) P.afmaxshort) else (s.ep, s.afshort)
      (-s.sar, ⟨false, max3 (s.sar + af * (ep - s.sar)) h s.hi, ep, s.aflong, af, h, l⟩)

/-- the loop (sarext.py:77-106) -/
def sarExtGo (P : SarExtP V) (s : SarExtSt V) : List (V × V) → List V
  | [] => []
  | (h, l) :: xs => (sarExtStep P s h l).1 :: sarExtGo P (sarExtStep P s h l).2 xs

/-- values before the loop (sarext.py:51-75) -/
def sarExtInit (P : SarExtP V) (hi1 lo1 hi lo : V) : SarExtSt V :=
  if eqv P.startval (lit 0) then
    let upmove := hi - hi1
    let downmove := lo1 - lo
    let minusdm := maxV downmove (lit 0) * ofBool (lt upmove downmove)
    let trend := !lt (lit 0) minusdm
    if trend then ⟨true, lo1, hi, P.aflong, P.afshort, hi, lo⟩ else ⟨false, hi1, lo, P.aflong, P.afshort, hi, lo⟩
  else if lt (lit 0) P.startval then ⟨true, P.startval, hi, P.aflong, P.afshort, hi, lo⟩
  else ⟨false, absv P.startval, lo, P.aflong, P.afshort, hi, lo⟩

/-- `_sarize` (sarext.py:50-106) -/
def sarExtize (P : SarExtP V) : List (V × V) → Except Err (List V)
  | (hi1, lo1) :: (hi, lo) :: xs => .ok (nan :: sarExtGo P (sarExtInit P hi1 lo1 hi lo) ((hi, lo) :: xs))
  | _ => .error .indexError

/-- `sarext` (sarext.py:45-48) -/
def sarext (P : SarExtP V) (h l : Line V) : Except Err (Line V) := applySar (sarExtize P) h l

/-! ## mavp.py -/

/-- `periods.clip(lower=.., upper=..)` (mavp.py:50) on integers: pandas takes two scalar bounds in either order -/
def clipBoth (lo hi q : Nat) : Nat := min (max q (min lo hi)) (max lo hi)

/-- `mavp` (mavp.py:47-61).  `periods` is an integer series (pandas only accepts integer windows) with minimum period 1.
The averages are calculated once per distinct clipped period; the minimum period is that of the slowest one needed
(or of `maxperiod` with ta-lib compatibility).  `talib` is `_talib_`. -/
def mavp (ma : MA V) (minp maxp : Nat) (talib : Bool) (close : Line V) (periods : List Nat) : Except Err (Line V) := do
  let per := periods.map (clipBoth minp maxp)
  let uper := per.dedup
  let mas ← uper.mapM fun q => do return (q, ← ma q close)
  let top := if talib then (maxp : Int) else (uper.foldl max 0 : Nat)
  let pmp := close.minperiod + (top - 1)
  let mp := mas.foldl (fun m q => max m q.2.minperiod) (max pmp 1)
  let minidx := mp - 1
  let n := close.series.length
  let pick (i q : Nat) : V := match mas.find? (fun e => e.1 == q) with
    | some e => (e.2.series[i]?).getD nan
    | none => nan
  let r := (List.range n).map fun i => pick i ((per[i]?).getD 0)
  return clone close (setFrom n nan minidx (pyFrom r minidx)) mp

/-! ## math.py -/

/-- `_mathrad` (math.py:12-13, 22-23) and the other transforms (math.py:196-291): `line.apply(func)`; `sqrt` is
`line.pow(0.5)`, a binary operation with a scalar, here given as function too -/
def mathFn (f : V → V) (a : Line V) : Line V := mapOp f a

end Ind
end Bta
