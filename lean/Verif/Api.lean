import Verif.Ind.Catalog
import Verif.Meta.Decls

/-!
# Calls of the library with python keywords

`Ind/*.lean` models the initialisers with typed parameters; `Meta/*.lean` models the machinery of parameters, hooks and
keywords.  Here both are joined: `Api.call` is `btalib.<class>(*inputs, **keywords)` (indicator.py:79-181) for the classes of
the library, with the parameters read from the keywords in the way the `__init__` methods read them.

A call is `outside` if it gives a parameter a value of a kind which is not modelled: a period which is not a natural number,
a number which is not an int or a float, a function or an own class as average, keywords of `pandas.DataFrame.ewm` given to
`ewma`; and for `mavp`, whose periods are an input of integers (see `Ind.mavp`).
-/

namespace Bta.Api

open Meta Py
open Line (Seed)

/-- What a call ends with instead of a result: an exception, or it is not modelled. (indicator.py:79-181) -/
inductive Fault where
  | py (e : Err)
  | outside
deriving DecidableEq, Repr

/-- the outcome of a call (indicator.py:79-181) -/
abbrev Out := Except Fault

/-- a function of the model which may raise (used wherever initialisers call others, indicator.py:151-152) -/
def lift {α : Type} : Except Err α → Out α
  | .ok a => .ok a
  | .error e => .error (.py e)

/-- Functions of numpy and settings the library gets from outside: `fn` is the numpy function with the name (`sin`, `arctan`, `sqrt`, ...), `radians`
is `np.radians`, `deg` is `180.0 / np.pi` (linreg.py:122), `scipy` whether scipy is installed (lines.py:11-16), `talib` the
global setting (config.py). -/
structure Env (V : Type) where
  fn : String → V → V
  radians : V → V
  deg : V
  ht : HtFns V
  scipy : Bool
  talib : Bool

variable {V : Type} [PyFloat V]

/-! ## Reading parameters -/

/-- `self.p.<name>` (params.py:125-132; all are there, see `Params`) or the value of a keyword of `__init__` -/
def need (p : String → Option PyVal) (k : String) : Out PyVal :=
  match p k with
  | some v => .ok v
  | none => .error (.py .attributeError)

/-- a period: a natural number (params.py:125-132) -/
def asNat : PyVal → Out Nat
  | .int (.ofNat n) => .ok n
  | _ => .error .outside

/-- a number (params.py:125-132) -/
def asNum : PyVal → Out V
  | .int i => .ok (lit i)
  | .num q => .ok (lit q)
  | _ => .error .outside

/-- a flag which is used as a number or given to pandas: only `True` and `False` (params.py:125-132) -/
def asBool : PyVal → Out Bool
  | .bool b => .ok b
  | _ => .error .outside

/-- `_seed` (utils.py:16-21) -/
def asSeed : PyVal → Out Seed
  | .int 0 => .ok .avg
  | .int 1 => .ok .last
  | .int 2 => .ok .sum
  | .int 4 => .ok .none
  | .int 5 => .ok .zero
  | .int 6 => .ok .zfill
  | _ => .error .outside

/-- a class of the library (params.py:125-132) -/
def asCls : PyVal → Out Cls
  | .cls n => match Cls.ofName n with
    | some c => .ok c
    | none => .error .outside
  | _ => .error .outside

/-- a parameter which is a period (params.py:125-132) -/
def nat (p : String → Option PyVal) (k : String) : Out Nat := do asNat (← need p k)
/-- a parameter which is a number (params.py:125-132) -/
def num (p : String → Option PyVal) (k : String) : Out V := do asNum (← need p k)
/-- a parameter which is `True` or `False` (params.py:125-132) -/
def flag (p : String → Option PyVal) (k : String) : Out Bool := do asBool (← need p k)
/-- the parameter `_seed` (params.py:125-132) -/
def seed (p : String → Option PyVal) (k : String) : Out Seed := do asSeed (← need p k)
/-- `if self.p.<name>` (params.py:125-132) -/
def truth (p : String → Option PyVal) (k : String) : Out Bool := do return (← need p k).truthy
/-- `self.p.a or self.p.b` (params.py:125-132) -/
def either (p : String → Option PyVal) (a b : String) : Out PyVal := do
  let v ← need p a
  if v.truthy then return v else need p b

/-! ## From keywords to parameters -/

/-- What `__init__` gets to see: the flag `_talib_`, the parameters and the keywords which are left over. (indicator.py:98, 109, 138-145) -/
structure Seen where
  talib : Bool
  params : Dict String PyVal
  rest : Dict String PyVal

/-- indicator.py:98 (the flag), 138-141 (the hooks), 145 (the parameters), 151-152 (an `__init__` which does not take what is
left raises TypeError). -/
def resolve (global : Bool) (c : Cls) (kw : Dict String PyVal) : Out Seen := do
  let r := fromKwargs ⟨c.defaults, []⟩ (talibKwargs global c.hooks kw)
  lift (initCheck c.rows 0 (keys r.2))
  return ⟨(talibFlag global kw).1, r.1, r.2⟩

/-! ## Averages -/

/-- keywords of `DataFrame.ewm` of pandas other than `adjust` (ewma.py:33-35, lines.py:308) -/
def pandasEwm : List String :=
  ["com", "span", "halflife", "alpha", "min_periods", "ignore_na", "axis", "times", "method"]

/-- The averages and what they read besides the period; `ma` gives the average meant by a value (without further keywords).
Cites: sma.py:27-28, ema.py:37-39, smma.py:39-41, ewma.py:33-35, wma.py:33-40, dema.py:32-35, tema.py:35-39, trima.py:32-39,
trix.py:39-43, t3.py:30-34, 72-108, kama.py:68-85, mathop.py:253-254, directionalmove.py:49-52. -/
def buildAvg (E : Env V) (ma : PyVal → Out (Avg V)) (s : Seen) : Cls → Out (Avg V)
  | .sma => .ok .sma
  | .ema => do
    let off ← match get? s.rest "poffset" with
      | none => pure 0
      | some v => asNat v
    return .ema (← seed (get? s.params) "_seed") off
  | .smma => do return .smma (← seed (get? s.params) "_seed")
  | .ewma =>
    -- what is left over is handed over to pandas
    if (keys s.rest).any (fun k => !pandasEwm.contains k) then .error (.py .typeError)
    else if (keys s.rest).isEmpty then do return .ewma (← flag (get? s.params) "adjust")
    else .error .outside
  | .wma => .ok .wma
  | .«sum» => .ok .sumN
  | .trima => .ok .trima
  | .dema => do return .dema (← ma (← need (get? s.params) "_ma"))
  | .tema => do return .tema (← ma (← need (get? s.params) "_ma"))
  | .trix => do return .trix (← ma (← need (get? s.params) "_ma"))
  | .gdema => do return .gdema (← ma (← need (get? s.params) "_ma")) (← num (get? s.params) "vfactor")
  | .t3 => do
    if ← truth (get? s.params) "_gd" then
      return .t3gd (← ma (← need (get? s.params) "_ma")) (← num (get? s.params) "vfactor")
    else return .t3 (← num (get? s.params) "vfactor")
  | .kama => do
    return .kama (← num (get? s.params) "fast") (← num (get? s.params) "slow") (← nat (get? s.params) "_pvol")
      (← seed (get? s.params) "_seed")
  | .smacc => do return .smacc E.scipy (← flag (get? s.params) "_pearly") (← seed (get? s.params) "_seed")
  | _ => .error .outside

/-- A class called as an average with a period and the keywords `kw`, as in `self.p._ma(line, period=.., **kw)` (macd.py:40,
directionalmove.py:85-97, ...).  The depth of averages within averages is limited by `fuel`; those of the library have two levels
at most, since the inner ones get no parameters but the period. (indicator.py:79-181) -/
def avgOf (E : Env V) : Nat → Dict String PyVal → PyVal → Out (Avg V)
  | 0, _, _ => .error .outside
  | fuel + 1, kw, v => do
    let c ← asCls v
    let s ← resolve E.talib c (("period", .int 1) :: kw)
    buildAvg E (avgOf E fuel []) s c

/-- `self.p._ma(line, period=..)` (indicator.py:79-181) -/
def ma (E : Env V) (v : PyVal) : Out (Avg V) := avgOf E 3 [] v

/-- a class called with further keywords (macd.py:40, directionalmove.py:86-89) -/
def maWith (E : Env V) (kw : Dict String PyVal) (v : PyVal) : Out (Avg V) := avgOf E 3 kw v

/-- `self.p.<name>` as an average (params.py:125-132) -/
def maOf (E : Env V) (p : String → Option PyVal) (k : String) : Out (Avg V) := do ma E (← need p k)

/-! ## The initialisers -/

/-- The smoother of the directional movement system with its arguments: `_accum` with `_pearly`, or `_ma` with `_alt`
(directionalmove.py:85-89) -/
def smoother (E : Env V) (p : String → Option PyVal) : Out (Avg V) := do
  if ← truth p "_alt" then maOf E p "_ma"
  else maWith E [("_pearly", ← need p "_pearly")] (← need p "_accum")

/-- math.py:12-13, 22-23: the function, after a conversion of degrees if asked for (`line.apply` twice is `line.apply` of the
composition). -/
def rad (E : Env V) (p : String → Option PyVal) (f : String) : Out (Call V) := do
  if ← truth p "degrees" then return .mathFn (fun x => E.fn f (E.radians x)) else return .mathFn (E.fn f)

/-- What the `__init__` methods of a class (and of its bases) do with the parameters and keywords they see.  The comments give
the lines which read them. -/
def build (E : Env V) (s : Seen) (c : Cls) : Out (Call V) :=
  let p := get? s.params
  match c with
  -- price.py:28-30, 51-52, 75-77, 99-100
  | .avgprice => do return .avgprice (← num p "divisor")
  | .typprice => do return .typprice (← num p "divisor")
  | .wclprice => do return .wclprice (← num p "weight") (← num p "divisor")
  | .medprice => do return .medprice (← num p "divisor")
  -- mathop.py:28-29, 44-45, 60-61, 76-77, 96-97, 114-115, 133-135
  | .add => .ok .add
  | .«div» => .ok .div
  | .mult => .ok .mult
  | .sub => .ok .sub
  | .«max» => do return .max (← nat p "period")
  | .«min» => do return .min (← nat p "period")
  | .minmax => do return .minmax (← nat p "period")
  -- mathop.py:156-163, 192-199
  | .maxindex => do
    if ← truth p "_absidx" then return .maxindexAbs (← nat p "period") else return .maxindex (← nat p "period")
  | .minindex => do
    if ← truth p "_absidx" then return .minindexAbs (← nat p "period") else return .minindex (← nat p "period")
  -- mathop.py:225-228: all parameters and keywords are handed over to minindex and maxindex
  | .minmaxindex => do
    let i ← resolve E.talib .minindex (update s.rest s.params)
    return .minmaxindex (← truth (get? i.params) "_absidx") (← nat (get? i.params) "period")
  -- averages: see `buildAvg`
  | .«sum» | .ewma | .sma | .ema | .smma | .wma | .dema | .kama | .tema | .trima | .trix | .gdema | .t3 | .smacc => do
    return .avg (← buildAvg E (ma E) s c) (← nat p "period")
  -- math.py:22-23 with the functions of 39, 55, 71, 89, 105, 121, 140, 157, 174
  | .sin => rad E p "sin"
  | .cos => rad E p "cos"
  | .tan => rad E p "tan"
  | .sinh => rad E p "sinh"
  | .cosh => rad E p "cosh"
  | .tanh => rad E p "tanh"
  | .asin => rad E p "arcsin"
  | .acos => rad E p "arccos"
  | .atan => rad E p "arctan"
  -- math.py:196-197, 215-216, 234-235, 253-254, 272-273, 290-291
  | .ceil => .ok (.mathFn (E.fn "ceil"))
  | .exp => .ok (.mathFn (E.fn "exp"))
  | .floor => .ok (.mathFn (E.fn "floor"))
  | .ln => .ok (.mathFn (E.fn "log"))
  | .log10 => .ok (.mathFn (E.fn "log10"))
  | .sqrt => .ok (.mathFn (E.fn "sqrt"))
  -- crossover.py:26-40, 60-61, 81-82, 106-107
  | .crossup => do return .crossup (← truth p "_strict")
  | .crossdown => do return .crossdown (← truth p "_strict")
  | .crossover => do return .crossover (← truth p "_strict")
  | .mavp => .error .outside
  -- mama.py:46-92
  | .mama => do return .mama E.ht (E.fn "arctan") (← num p "fastlimit") (← num p "slowlimit")
  -- ht_*.py: no parameters
  | .ht_trendline => .ok (.htTrendline E.ht)
  | .ht_dcperiod => .ok (.htDcperiod E.ht)
  | .ht_dcphase => .ok (.htDcphase E.ht)
  | .ht_phasor => .ok (.htPhasor E.ht)
  | .ht_sine => .ok (.htSine E.ht)
  | .ht_trendmode => .ok (.htTrendmode E.ht)
  -- midpoint.py:28-31, 51-52
  | .midprice => do return .midprice (← nat p "period")
  | .midpoint => do return .midpoint (← nat p "period")
  -- beta.py:38-53
  | .beta => do
    let prets ← nat p "_prets"
    return .beta (← truth p "_rets") prets (← nat p "period")
  -- correl.py:30-31
  | .correl => do return .correl (E.fn "sqrt") (← nat p "period")
  -- linreg.py:61-78, 99-100, 121-122, 145-166, 190-191, 235-236
  | .linearreg_slope => do return .linregSlope (← nat p "period")
  | .linearreg_angle => do return .linregAngle (E.fn "arctan") E.deg (← nat p "period")
  | .linearreg_intercept => do return .linregIntercept s.talib (← nat p "period")
  | .linearreg => do return .linreg (← nat p "period")
  | .tsf => do return .tsf (← nat p "period")
  -- madev.py:29-31
  | .mad => do return .mad (← nat p "period")
  -- stddev.py:26-27, var.py:26-28
  | .stddev | .stddev_s => do return .stddev (E.fn "sqrt") (← nat p "ddof") (← nat p "period")
  | .var | .var_s => do return .var (← nat p "ddof") (← nat p "period")
  -- bbands.py:33-37
  | .bbands => do return .bbands (E.fn "sqrt") (← maOf E p "_ma") (← num p "devs") (← nat p "period")
  -- atr.py:32-33 reads an input which it does not have, 58-59, 88-92, 118-119, 137-138
  | .truehigh => .error (.py .attributeError)
  | .truelow => do return .truelow (← nat p "_period")
  | .truerange => do return .truerange (← nat p "_period")
  | .atr => do return .atr (← maOf E p "_ma") (← nat p "_period") (← nat p "period")
  | .natr => do return .natr (← maOf E p "_ma") (← nat p "_period") (← nat p "period")
  -- aroon.py:32-39, 68-70, 89-90
  | .aroon => do return .aroon (← nat p "period")
  | .aroonosc => do return .aroonosc (← nat p "period")
  | .bop => .ok .bop
  -- cci.py:37-41
  | .cci => do return .cci (← maOf E p "_ma") (← num p "factor") (← nat p "period")
  -- cmo.py:32-36
  | .cmo => do return .cmo (← maOf E p "_sum") (← nat p "period")
  -- directionalmove.py:83-101, 138-139, 172-173, 208-210
  | .plus_dm => do return .plusDm (← smoother E p) (← nat p "period") (← nat p "_period")
  | .minus_dm => do return .minusDm (← smoother E p) (← nat p "period") (← nat p "_period")
  | .dm => do return .dm (← smoother E p) (← nat p "period") (← nat p "_period")
  -- directionalmove.py:250-260, 295-296, 327-328, 362-364, 399-400
  | .plus_di => do return .plusDi (← smoother E p) (← nat p "period") (← nat p "_period") s.talib
  | .minus_di => do return .minusDi (← smoother E p) (← nat p "period") (← nat p "_period") s.talib
  | .di => do return .di (← smoother E p) (← nat p "period") (← nat p "_period") s.talib
  | .dx => do return .dx (← smoother E p) (← nat p "period") (← nat p "_period") s.talib
  -- directionalmove.py:436-437
  | .adx => do
    return .adx (← smoother E p) (← maOf E p "_ma") (← nat p "period") (← nat p "_period") s.talib (← nat p "period")
  -- directionalmove.py:460-462
  | .adxr => do
    return .adxr (← smoother E p) (← maOf E p "_ma") (← nat p "period") (← nat p "_period") s.talib (← nat p "period")
      (some (← asNat (← either p "_prating" "period")))
  -- macd.py:39-48, 51-60: with ta-lib compatibility the fast average is called with the keyword `poffset`
  | .macd => do
    let slow ← need p "pslow"
    let fast ← maWith E (if s.talib then [("poffset", slow)] else []) (← need p "_ma")
    return .macd fast (← maOf E p "_ma") (← ma E (← either p "_masig" "_ma")) (← nat p "pfast") (← nat p "pslow")
      (← nat p "psignal")
  -- mfi.py:39-44, mom.py:30-31
  | .mfi => do return .mfi (← nat p "period")
  | .mom => do return .mom (← nat p "period")
  -- ppo.py:21-25, 48-49, 76-80, 112-118
  | .apo => do return .apo (← maOf E p "_ma") (← nat p "pfast") (← nat p "pslow")
  | .ppo => do
    return .ppo false (← maOf E p "_ma") (← ma E (← either p "_masig" "_ma")) (← nat p "pfast") (← nat p "pslow")
      (← nat p "psignal")
  | .ppofast => do
    return .ppo true (← maOf E p "_ma") (← ma E (← either p "_masig" "_ma")) (← nat p "pfast") (← nat p "pslow")
      (← nat p "psignal")
  -- roc.py:17-18, 40-41, 59-60, 94-95
  | .roc => do return .roc (← nat p "period")
  | .rocp => do return .rocp (← nat p "period")
  | .rocr => do return .rocr (← nat p "period")
  | .rocr100 => do return .rocr100 (← nat p "period")
  -- rsi.py:42-48
  | .rsi => do return .rsi (← maOf E p "_ma") (← nat p "lookback") (← nat p "period")
  -- sar.py:37-84
  | .sar => do return .sar (← num p "af") (← num p "afmax")
  -- sarext.py:45-106
  | .sarext => do
    return .sarext ⟨← num p "startval", ← num p "aflong", ← num p "afmaxlong", ← num p "afshort", ← num p "afmaxshort",
      ← num p "offsetonreverse"⟩
  -- stochastic.py:41-45, 80-83
  | .stochf => do return .stochf (← maOf E p "_ma") (← nat p "period") (← nat p "pfast")
  | .stochastic => do
    return .stochastic (← maOf E p "_ma") (← ma E (← either p "_maslow" "_ma")) (← nat p "period") (← nat p "pfast")
      (← nat p "pslow")
  -- stochrsi.py:42-57, 60-79: `_pfast` and `_ma` are keywords of `__init__`; the output `d` is there with ta-lib compatibility only
  | .stochrsi => do
    let philo ← asNat (← either p "_philo" "period")
    let fast := (get? s.rest "_pfast").getD .none
    if s.talib = fast.truthy then
      if fast.truthy then
        return .stochrsiD (← ma E (← need (get? s.rest) "_ma")) (← nat p "period") philo (← asNat fast) (← num p "_scale")
      else return .stochrsi (← nat p "period") philo (← num p "_scale")
    else .error .outside
  -- williamsr.py:34-37
  | .williamsr => do return .williamsr (← nat p "period")
  -- ultimateoscillator.py:41-54
  | .ultimateoscillator => do
    return .ultosc (← nat p "period1") (← nat p "period2") (← nat p "period3") (← num p "factor1") (← num p "factor2")
      (← num p "factor3")
  -- ad.py:32-37, 60-64
  | .ad => .ok .ad
  | .adosc => do return .adosc (← maOf E p "_ma") (← nat p "pfast") (← nat p "pslow")
  -- obv.py:42-51
  | .obv => do return .obv s.talib (← nat p "_period")
  -- private classes: bases of others, without outputs of their own
  | ._mathrad | ._crossbase | ._linreg_base | ._aroon | ._dm | ._di | ._posc | ._rocbase => .error .outside

/-! ## Calls -/

/-- The family of the Hilbert transform and `mama` take one input (`allowinputs = 1`) or two, of which they take the middle.
(mama.py:47, ht_*.py:41-43) -/
def inputsOf (c : Cls) (x : List (Line V)) : List (Line V) :=
  match c, x with
  | .mama, h :: l :: _ | .ht_trendline, h :: l :: _ | .ht_dcperiod, h :: l :: _ | .ht_dcphase, h :: l :: _
  | .ht_phasor, h :: l :: _ | .ht_sine, h :: l :: _ | .ht_trendmode, h :: l :: _ => [Ind.htMid h l]
  | _, x => x

/-- the `i`-th of the lines bound as inputs; there is one for each input of the class (indicator.py:114-119) -/
def nth (x : List (Line V)) (i : Nat) : Line V := x.getD i ⟨[], 1⟩

/-- `btalib.<c>(*inputs, **kw)` in a fresh library, after the inputs have been bound to the lines `x` (in the order in which
the class declares them): the outputs in the order in which the class declares them. (indicator.py:79-181) -/
def call (E : Env V) (c : Cls) (kw : Dict String PyVal) (x : List (Line V)) : Out (List (Line V)) := do
  let s ← resolve E.talib c kw
  let r ← build E s c
  lift (r.run (nth (inputsOf c x)))

end Bta.Api
