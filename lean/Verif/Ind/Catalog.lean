import Verif.Ind.Ht

/-!
# The indicators of the library as one datatype

`Avg` are the averages which can be given as a parameter like `_ma`, `Call` the calls `btalib.<indicator>(inputs, params)`.
A call is run on the lines bound as inputs (`x 0`, `x 1`, ... in the order in which the class declares them) and gives
the list of its outputs, in the order in which the class declares them.  Nothing is modelled here anew: `run` only refers
to the definitions of `Ind/Core.lean` and `Ind/Ht.lean`, which cite the code.  Not in the catalogue: `mavp` (periods are
integers, see `Ind.mavp`) and `truehigh` (raises, see `C62_*`).
-/

set_option linter.unusedSectionVars false
set_option linter.unusedVariables false

namespace Bta
open Line

variable {V : Type} [PyFloat V]

/-- Averages with their parameters other than the period: sma.py, ema.py, smma.py, ewma.py, wma.py, dema.py, tema.py,
trima.py, t3.py, trix.py, kama.py, mathop.py (`SumN`), directionalmove.py (`smacc`).  `m` is the parameter `_ma`. -/
inductive Avg (V : Type) where
  | sma
  | ema (seed : Seed) (poffset : Nat)
  | smma (seed : Seed)
  | ewma (adjust : Bool)
  | wma
  | sumN
  | trima
  | dema (m : Avg V)
  | tema (m : Avg V)
  | trix (m : Avg V)
  | gdema (m : Avg V) (v : V)
  | t3 (v : V)
  | t3gd (m : Avg V) (v : V)
  | kama (fast slow : V) (pvol : Nat) (seed : Seed)
  | smacc (scipy pearly : Bool) (seed : Seed)

/-- see the definitions referred to (sma.py:27-28, ema.py:37-39, smma.py:39-41, ewma.py:33-35, wma.py:33-40, ...) -/
def Avg.run : Avg V → MA V
  | .sma => Ind.sma
  | .ema s o => Ind.emaG s o
  | .smma s => Ind.smmaG s
  | .ewma adj => Ind.ewmaG adj
  | .wma => Ind.wma
  | .sumN => Ind.sumNMA
  | .trima => Ind.trima
  | .dema m => Ind.dema m.run
  | .tema m => Ind.tema m.run
  | .trix m => Ind.trix m.run
  | .gdema m v => Ind.gdema m.run v
  | .t3 v => Ind.t3 v
  | .t3gd m v => Ind.t3gd m.run v
  | .kama f s pv sd => Ind.kama f s pv sd
  | .smacc sp pe sd => Ind.smacc sp pe sd

/-- Calls with their parameters. (the classes of indicators/*.py, one constructor each; parameters as in their `params`) -/
inductive Call (V : Type) where
  | avg (m : Avg V) (p : Nat)
  | add | sub | mult | div
  | max (p : Nat) | min (p : Nat) | minmax (p : Nat)
  | maxindex (p : Nat) | minindex (p : Nat) | maxindexAbs (p : Nat) | minindexAbs (p : Nat)
  | minmaxindex (abs : Bool) (p : Nat)
  | avgprice (d : V) | typprice (d : V) | wclprice (w d : V) | medprice (d : V)
  | macd (mafast ma masig : Avg V) (pfast pslow psignal : Nat)
  | apo (ma : Avg V) (pfast pslow : Nat)
  | ppo (fast : Bool) (ma masig : Avg V) (pfast pslow psignal : Nat)
  | mom (p : Nat) | roc (p : Nat) | rocp (p : Nat) | rocr (p : Nat) | rocr100 (p : Nat)
  | rsi (ma : Avg V) (lookback p : Nat)
  | cmo (sum : Avg V) (p : Nat)
  | mad (p : Nat)
  | cci (ma : Avg V) (factor : V) (p : Nat)
  | var (ddof p : Nat)
  | stddev (sq : V → V) (ddof p : Nat)
  | bbands (sq : V → V) (ma : Avg V) (devs : V) (p : Nat)
  | stochf (ma : Avg V) (p pfast : Nat)
  | stochastic (ma maslow : Avg V) (p pfast pslow : Nat)
  | williamsr (p : Nat)
  | stochrsi (p philo : Nat) (scale : V)
  | stochrsiD (ma : Avg V) (p philo pfast : Nat) (scale : V)
  | midprice (p : Nat) | midpoint (p : Nat)
  | bop
  | truelow (q : Nat) | truerange (q : Nat)
  | atr (ma : Avg V) (q p : Nat)
  | natr (ma : Avg V) (q p : Nat)
  | ultosc (p1 p2 p3 : Nat) (f1 f2 f3 : V)
  | mfi (p : Nat)
  | obv (talib : Bool) (q : Nat)
  | ad
  | adosc (ma : Avg V) (pfast pslow : Nat)
  | aroon (p : Nat) | aroonosc (p : Nat)
  | linregSlope (p : Nat) | linregAngle (atan : V → V) (rad2deg : V) (p : Nat)
  | linregIntercept (talib : Bool) (p : Nat) | linreg (p : Nat) | tsf (p : Nat)
  | beta (rets : Bool) (prets p : Nat)
  | correl (sq : V → V) (p : Nat)
  | crossup (strict : Bool) | crossdown (strict : Bool) | crossover (strict : Bool)
  | plusDm (sm : Avg V) (ps q : Nat) | minusDm (sm : Avg V) (ps q : Nat) | dm (sm : Avg V) (ps q : Nat)
  | plusDi (sm : Avg V) (ps q : Nat) (talib : Bool) | minusDi (sm : Avg V) (ps q : Nat) (talib : Bool)
  | di (sm : Avg V) (ps q : Nat) (talib : Bool)
  | dx (sm : Avg V) (ps q : Nat) (talib : Bool)
  | adx (sm ma : Avg V) (ps q : Nat) (talib : Bool) (p : Nat)
  | adxr (sm ma : Avg V) (ps q : Nat) (talib : Bool) (p : Nat) (prating : Option Nat)
  | sar (af afmax : V)
  | sarext (P : Ind.SarExtP V)
  | htDcperiod (F : HtFns V) | htPhasor (F : HtFns V)
  | htDcphase (F : HtFns V) | htSine (F : HtFns V) | htTrendline (F : HtFns V) | htTrendmode (F : HtFns V)
  | mama (F : HtFns V) (arctan : V → V) (fastlimit slowlimit : V)
  | mathFn (f : V → V)

/-- one output (assignment `self.o.<name> = ...`, lines.py:639-640) -/
def one (l : Line V) : Except Err (List (Line V)) := .ok [l]
/-- one output of a calculation which may raise (as `one`) -/
def oneE (l : Except Err (Line V)) : Except Err (List (Line V)) := do return [← l]
/-- two outputs (as `one`) -/
def twoE (l : Except Err (Line V × Line V)) : Except Err (List (Line V)) := do
  let r ← l
  return [r.1, r.2]
/-- three outputs (as `one`) -/
def threeE (l : Except Err (Line V × Line V × Line V)) : Except Err (List (Line V)) := do
  let r ← l
  return [r.1, r.2.1, r.2.2]

/-- see the definitions referred to; the Hilbert family is given the price line (the only input, or `htMid` of two) (the `__init__` methods of indicators/*.py) -/
def Call.run (x : Nat → Line V) : Call V → Except Err (List (Line V))
  | .avg m p => oneE (m.run p (x 0))
  | .add => one (Ind.add (x 0) (x 1))
  | .sub => one (Ind.sub (x 0) (x 1))
  | .mult => one (Ind.mult (x 0) (x 1))
  | .div => one (Ind.div (x 0) (x 1))
  | .max p => one (Ind.highest p (x 0))
  | .min p => one (Ind.lowest p (x 0))
  | .minmax p => .ok [(Ind.minmax p (x 0)).1, (Ind.minmax p (x 0)).2]
  | .maxindex p => one (Ind.maxindex p (x 0))
  | .minindex p => one (Ind.minindex p (x 0))
  | .maxindexAbs p => one (Ind.maxindexAbs p (x 0))
  | .minindexAbs p => one (Ind.minindexAbs p (x 0))
  | .minmaxindex b p => .ok [(Ind.minmaxindex b p (x 0)).1, (Ind.minmaxindex b p (x 0)).2]
  | .avgprice d => one (Ind.avgprice d (x 0) (x 1) (x 2) (x 3))
  | .typprice d => one (Ind.typprice d (x 0) (x 1) (x 2))
  | .wclprice w d => one (Ind.wclprice w d (x 0) (x 1) (x 2))
  | .medprice d => one (Ind.medprice d (x 0) (x 1))
  | .macd mf ma ms pf ps pg => threeE (Ind.macd mf.run ma.run ms.run pf ps pg (x 0))
  | .apo ma pf ps => oneE (Ind.apo ma.run pf ps (x 0))
  | .ppo fast ma ms pf ps pg => threeE (Ind.ppo fast ma.run ms.run pf ps pg (x 0))
  | .mom p => one (Ind.mom p (x 0))
  | .roc p => one (Ind.roc p (x 0))
  | .rocp p => one (Ind.rocp p (x 0))
  | .rocr p => one (Ind.rocr p (x 0))
  | .rocr100 p => one (Ind.rocr100 p (x 0))
  | .rsi ma lb p => oneE (Ind.rsi ma.run lb p (x 0))
  | .cmo sum p => oneE (Ind.cmo sum.run p (x 0))
  | .mad p => one (Ind.mad p (x 0))
  | .cci ma f p => oneE (Ind.cci ma.run f p (x 0) (x 1) (x 2))
  | .var d p => one (Ind.var d p (x 0))
  | .stddev sq d p => one (Ind.stddev sq d p (x 0))
  | .bbands sq ma d p => threeE (Ind.bbands sq ma.run d p (x 0))
  | .stochf ma p pf => twoE (Ind.stochf ma.run p pf (x 0) (x 1) (x 2))
  | .stochastic ma ms p pf ps => twoE (Ind.stochastic ma.run ms.run p pf ps (x 0) (x 1) (x 2))
  | .williamsr p => one (Ind.williamsr p (x 0) (x 1) (x 2))
  | .stochrsi p ph s => oneE (Ind.stochrsi p ph s (x 0))
  | .stochrsiD ma p ph pf s => twoE (Ind.stochrsiD ma.run p ph pf s (x 0))
  | .midprice p => one (Ind.midprice p (x 0) (x 1))
  | .midpoint p => one (Ind.midpoint p (x 0))
  | .bop => one (Ind.bop (x 0) (x 1) (x 2) (x 3))
  | .truelow q => one (Ind.truelow q (x 0) (x 1))
  | .truerange q => one (Ind.truerange q (x 0) (x 1) (x 2))
  | .atr ma q p => oneE (Ind.atr ma.run q p (x 0) (x 1) (x 2))
  | .natr ma q p => oneE (Ind.natr ma.run q p (x 0) (x 1) (x 2))
  | .ultosc p1 p2 p3 f1 f2 f3 => one (Ind.ultosc p1 p2 p3 f1 f2 f3 (x 0) (x 1) (x 2))
  | .mfi p => one (Ind.mfi p (x 0) (x 1) (x 2) (x 3))
  | .obv t q => one (Ind.obv t q (x 0) (x 1))
  | .ad => one (Ind.ad (x 0) (x 1) (x 2) (x 3))
  | .adosc ma pf ps => oneE (Ind.adosc ma.run pf ps (x 0) (x 1) (x 2) (x 3))
  | .aroon p => .ok [(Ind.aroon p (x 0) (x 1)).1, (Ind.aroon p (x 0) (x 1)).2]
  | .aroonosc p => one (Ind.aroonosc p (x 0) (x 1))
  | .linregSlope p => one (Ind.linregSlope p (x 0))
  | .linregAngle at' d p => one (Ind.linregAngle at' d p (x 0))
  | .linregIntercept t p => one (Ind.linregIntercept t p (x 0))
  | .linreg p => one (Ind.linreg p (x 0))
  | .tsf p => one (Ind.tsf p (x 0))
  | .beta r pr p => one (Ind.beta r pr p (x 0) (x 1))
  | .correl sq p => one (Ind.correl sq p (x 0) (x 1))
  | .crossup s => one (Ind.crossup s (x 0) (x 1))
  | .crossdown s => one (Ind.crossdown s (x 0) (x 1))
  | .crossover s => oneE (Ind.crossover s (x 0) (x 1))
  | .plusDm sm ps q => oneE (Ind.plusDm (sm.run ps) q (x 0) (x 1))
  | .minusDm sm ps q => oneE (Ind.minusDm (sm.run ps) q (x 0) (x 1))
  | .dm sm ps q => twoE (Ind.dm (sm.run ps) q (x 0) (x 1))
  | .plusDi sm ps q t => oneE (Ind.plusDi (sm.run ps) q t (x 0) (x 1) (x 2))
  | .minusDi sm ps q t => oneE (Ind.minusDi (sm.run ps) q t (x 0) (x 1) (x 2))
  | .di sm ps q t => twoE (Ind.di (sm.run ps) q t (x 0) (x 1) (x 2))
  | .dx sm ps q t => oneE (Ind.dx (sm.run ps) q t (x 0) (x 1) (x 2))
  | .adx sm ma ps q t p => oneE (Ind.adx (sm.run ps) ma.run q t p (x 0) (x 1) (x 2))
  | .adxr sm ma ps q t p pr => oneE (Ind.adxr (sm.run ps) ma.run q t p pr (x 0) (x 1) (x 2))
  | .sar af am => oneE (Ind.sar af am (x 0) (x 1))
  | .sarext P => oneE (Ind.sarext P (x 0) (x 1))
  | .htDcperiod F => one (Ind.htDcperiod F (x 0))
  | .htPhasor F => .ok [Ind.htInphase F (x 0), Ind.htQuadrature F (x 0)]
  | .htDcphase F => do Ind.htCheck F (x 0); one (Ind.htDcphase F (x 0))
  | .htSine F => do Ind.htCheck F (x 0); .ok [Ind.htSine F (x 0), Ind.htLeadsine F (x 0)]
  | .htTrendline F => do Ind.htCheck F (x 0); one (Ind.htTrendline F (x 0))
  | .htTrendmode F => do Ind.htCheck F (x 0); one (Ind.htTrendmode F (x 0))
  | .mama F at' f s => twoE (Ind.mama F at' f s (x 0))
  | .mathFn f => one (Ind.mathFn f (x 0))

end Bta
